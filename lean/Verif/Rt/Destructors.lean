import Verif.Rt.System

/-! # Destructors of single threaded closures

The closures given to the `_st` methods are kept in a `Fragile` (F:1026, F:2133, F:2272, F:2307).  The
contract of that external crate (`fragile = "2.0"`, mockall/Cargo.toml:43) assumed here: its destructor
panics when it runs on a thread other than the one that made it; `into_inner` on such a thread panics while
it still owns the value.

The functions of `Rt/Expectation` to `Rt/System` leave these destructors out.  This module repeats the
functions that destroy expectations with the destroying thread as a parameter and with every destructor of
a `Fragile` in its place, and then whole programs in which each operation is executed by some thread.

A panic that leaves a destructor while the thread is already panicking aborts the process.  When the
destructor of one part of a value panics, the remaining parts are destroyed while panicking.
Destructors of user values and of the other closures are assumed not to panic. -/

namespace Mockall

variable {V : Type}

/-- A panic of a destructor: of `Common::drop` or `lock().unwrap()`, or of a `Fragile`. -/
inductive DropPanic
  | verify (p : Panic)
  | wrongThread
  deriving DecidableEq, Repr

/-- The outcome of running destructors. -/
inductive Fate
  | done
  | panicked (p : DropPanic)
  | aborted
  deriving DecidableEq, Repr

/-- A destructor panics; `panicking` says whether the thread was panicking already. -/
def Fate.raise (panicking : Bool) (p : DropPanic) : Fate := if panicking then .aborted else .panicked p

/-- Go on with the next destructor. -/
def Fate.andThen (f : Fate) (panicking : Bool) (next : Bool → Fate) : Fate :=
  match f with
  | .done => next panicking
  | .panicked p =>
    match next true with
    | .done => .panicked p
    | _ => .aborted
  | .aborted => .aborted

/-- `impl Drop for Fragile` (external crate). -/
def fragileDrop (tid owner : Nat) (panicking : Bool) : Fate :=
  if tid = owner then .done else .raise panicking .wrongThread

/-- Destroying a `Matcher`, F:1704-1715. -/
def Matcher.dropOn (tid : Nat) (panicking : Bool) : Matcher V → Fate
  | .funcSt owner _ => fragileDrop tid owner panicking
  | _ => .done

/-- Destroying an `Rfunc`: F:1778-1785 (ref), F:1841-1856 (refMut), F:1925-1944 (static). -/
def Ret.dropOn (tid : Nat) (panicking : Bool) : Ret V → Fate
  | .refMut (.mutSt owner _ _) => fragileDrop tid owner panicking
  | .static (.mutSt owner _) _ => fragileDrop tid owner panicking
  | .static (.onceSt owner _) _ => fragileDrop tid owner panicking
  | _ => .done

/-- Destroying a `Common`: `Common::drop` (F:1036-1061), then its fields (F:936-940), of which only the
matcher can hold a `Fragile`. -/
def Common.dropOn (tid : Nat) (panicking : Bool) (func : String) (c : Common V) : Fate :=
  Fate.andThen
    (match c.drop panicking func with
      | .ok () => .done
      | .error p => .raise panicking (.verify p))
    panicking (fun pk => c.matcher.dropOn tid pk)

/-- Destroying an `Expectation`: the fields `common` and `rfunc` in this order (F:2020-2023,
F:2085-2088, F:2175-2178). -/
def Expectation.dropOn (tid : Nat) (panicking : Bool) (info : FnInfo V) (e : Expectation V) : Fate :=
  (e.common.dropOn tid panicking info.funcname).andThen panicking (fun pk => e.ret.dropOn tid pk)

/-- Destroying a `Vec<Expectation>` or a `vec::Drain` (F:1209-1213): in order, all of them even if one
panics. -/
def dropAllOn (tid : Nat) (info : FnInfo V) : Bool → List (Expectation V) → Fate
  | _, [] => .done
  | pk, e :: es => (e.dropOn tid pk info).andThen pk (fun pk' => dropAllOn tid info pk' es)

/-- Destroying a `HashMap` or a `hash_map::Drain` (F:2476-2481): entry by entry; when one panics the
others are leaked (contract of std). -/
def dropMapOn (tid : Nat) (info : FnInfo V) (panicking : Bool) : GMap V → Fate
  | [] => .done
  | p :: m =>
    match dropAllOn tid info panicking p.2 with
    | .done => dropMapOn tid info panicking m
    | f => f

/-- Destroying the store of an instance method, or the iterator returned by its `checkpoint`. -/
def Store.dropOn (env : Env V) (tid : Nat) (info : FnInfo V) (panicking : Bool) : Store V → Fate
  | .concrete es => dropAllOn tid info panicking es
  | .generic m => dropMapOn tid info panicking (env.ord m)

/-- Dropping a mock object, see `Obj.drop`. -/
def Obj.dropOn (env : Env V) (tid : Nat) : Bool → Obj V → Fate
  | _, [] => .done
  | pk, s :: ss => (s.store.dropOn env tid s.mi.base pk).andThen pk (fun pk' => Obj.dropOn env tid pk' ss)

/-- The generated `checkpoint` method, see `Obj.checkpoint` (S:353-357, S:447-451, F:598). -/
def Obj.checkpointOn (env : Env V) (tid : Nat) : Obj V → Fate × Obj V
  | [] => (.done, [])
  | s :: ss =>
    let s' : Slot V := { s with store := s.store.drained }
    match s.store.dropOn env tid s.mi.base false with
    | .done =>
      let r := Obj.checkpointOn env tid ss
      (r.1, s' :: r.2)
    | f => (f, s' :: ss)

/-- `Context::checkpoint`, F:1601-1612, and the static branch of F:586-596.  The drained expectations
are collected into a `Vec`, so that all of them are destroyed. -/
def StaticFn.checkpointOn (env : Env V) (tid : Nat) (f : StaticFn V) : Fate × StaticFn V :=
  if f.poison then (.panicked (.verify .poisoned), f)
  else (dropAllOn tid f.mi.base false (f.store.elems env), { f with store := f.store.drained })

/-- `impl Drop for Context`, F:1631-1650. -/
def StaticFn.dropContextOn (env : Env V) (tid : Nat) (panicking : Bool) (f : StaticFn V) :
    Fate × StaticFn V :=
  if panicking then
    (dropAllOn tid f.mi.base true (f.store.elems env), { f with store := f.store.drained, poison := false })
  else f.checkpointOn env tid

/-- `checkpoint()` of a mocked module, see `checkpointModule` (mock_item.rs:165-190). -/
def checkpointModuleOn (env : Env V) (tid : Nat) : List Nat → List (StaticFn V) →
    Option Fate × List (StaticFn V)
  | [], sts => (some .done, sts)
  | f :: fs, sts =>
    match sts[f]? with
    | none => (none, sts)
    | some sf =>
      let r := sf.checkpointOn env tid
      match r.1 with
      | .done => checkpointModuleOn env tid fs (sts.set f r.2)
      | fate => (some fate, sts.set f r.2)

/-- What the user observes when destructors are taken into account. -/
inductive TObs (V : Type)
  | seen (o : Obs V)
  /-- "destructor of fragile object ran on wrong thread" -/
  | wrongThread
  /-- the process ends -/
  | aborted

/-- An outcome of destructors as an observation. -/
def Fate.obs : Fate → TObs V
  | .done => .seen (.unit (.ok ()) false)
  | .panicked (.verify p) => .seen (.unit (.error p) false)
  | .panicked .wrongThread => .wrongThread
  | .aborted => .aborted

/-- An observation of an operation that destroys nothing: as it is, except that the panic of
`into_inner` on a foreign thread (F:1976) meets the destructor of the value it owns. -/
def Obs.withMove : Obs V → TObs V
  | .value (.error .fragileMove) => .aborted
  | o => .seen o

/-- Run one operation on thread `tid`.  (`Op.call` and the `_st` builder calls carry the thread they run
on themselves; in a program that can be written it is `tid` again, but nothing depends on that.) -/
def Sys.stepOn (env : Env V) (tid : Nat) (s : Sys V) (op : Op V) : TObs V × Sys V :=
  match op with
  | .checkpoint o =>
    match s.objs[o]? with
    | some (some obj) =>
      let r := obj.checkpointOn env tid
      (r.1.obs, { s with objs := s.objs.set o (some r.2) })
    | _ => (.seen .invalid, s)
  | .drop o panicking =>
    match s.objs[o]? with
    | some (some obj) => ((obj.dropOn env tid panicking).obs, { s with objs := s.objs.set o none })
    | _ => (.seen .invalid, s)
  | .scheckpoint f =>
    match s.statics[f]? with
    | some sf =>
      let r := sf.checkpointOn env tid
      (r.1.obs, { s with statics := s.statics.set f r.2 })
    | none => (.seen .invalid, s)
  | .sdrop f panicking =>
    match s.statics[f]? with
    | some sf =>
      let r := sf.dropContextOn env tid panicking
      (r.1.obs, { s with statics := s.statics.set f r.2 })
    | none => (.seen .invalid, s)
  | .mcheckpoint fs =>
    let r := checkpointModuleOn env tid fs s.statics
    (match r.1 with | some u => u.obs | none => .seen .invalid, { s with statics := r.2 })
  | op =>
    let r := s.step env op
    (r.1.withMove, r.2)

/-- Run a program of operations, each on its thread; it ends when the process aborts. -/
def Sys.runOn (env : Env V) : List (Nat × Op V) → Sys V → List (TObs V) × Sys V
  | [], s => ([], s)
  | op :: ops, s =>
    match s.stepOn env op.1 op.2 with
    | (.aborted, s') => ([.aborted], s')
    | (o, s') =>
      let t := Sys.runOn env ops s'
      (o :: t.1, t.2)

end Mockall
