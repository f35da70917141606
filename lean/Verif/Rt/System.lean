import Verif.Rt.Object
import Verif.Rt.Static

/-! # Whole programs

A program is a list of operations on any number of mock objects, static methods and sequences,
executed one after the other (concurrency: see `Conc/`).  Panics are caught and the program goes on,
so the histories include everything that `catch_unwind` makes possible; a test that stops at its
first panic is the special case of a history ending there. -/

namespace Mockall

variable {V : Type}

/-- An operation.  Objects, methods of an object and static methods are referred to by number. -/
inductive Op (V : Type)
  /-- create a mock object with these instance methods -/
  | new (ms : List (MethodInfo V))
  | expect (o m : Nat) (k : Key) (bs : List (Build V))
  | call (o m : Nat) (k : Key) (tid : Nat) (args : List V) (upd : V → V)
  | checkpoint (o : Nat)
  | drop (o : Nat) (panicking : Bool)
  | sexpect (f : Nat) (k : Key) (bs : List (Build V))
  | scall (f : Nat) (k : Key) (tid : Nat) (args : List V)
  | scheckpoint (f : Nat)
  | sdrop (f : Nat) (panicking : Bool)
  /-- `checkpoint()` of a mocked module with these functions -/
  | mcheckpoint (fs : List Nat)

/-- What the user observes. -/
inductive Obs (V : Type)
  /-- a call: returned value or panic -/
  | value (r : Except Panic V)
  /-- expect, checkpoint, drop: completion or panic; `abort` if the process would abort -/
  | unit (r : Except Panic Unit) (abort : Bool)
  /-- the operation names an object or method that does not exist; not expressible in Rust -/
  | invalid

/-- The state of a program. -/
structure Sys (V : Type) where
  objs : List (Option (Obj V))
  statics : List (StaticFn V)
  world : World V

/-- At the start there are no objects, and the static methods have no expectations. -/
def Sys.init (sts : List (MethodInfo V)) : Sys V :=
  { objs := [], statics := sts.map StaticFn.new
    world := { seqs := fun _ => SeqState.new, fresh := 0, made := [], log := [], runs := [] } }

/-- `checkpoint()` of a mocked module (mock_item.rs:165-190): the static checkpoint (F:586-596) of
every function of the module in order; a panic skips the rest. -/
def checkpointModule (env : Env V) : List Nat → List (StaticFn V) →
    Option (Except Panic Unit × Bool) × List (StaticFn V)
  | [], sts => (some (.ok (), false), sts)
  | f :: fs, sts =>
    match sts[f]? with
    | none => (none, sts)
    | some sf =>
      let r := sf.checkpoint env false
      match r.1.1 with
      | .error p => (some (.error p, r.1.2), sts.set f r.2)
      | .ok () => checkpointModule env fs (sts.set f r.2)

/-- Run one operation. -/
def Sys.step (env : Env V) (s : Sys V) : Op V → Obs V × Sys V
  | .new ms => (.unit (.ok ()) false, { s with objs := s.objs ++ [some (Obj.new ms)] })
  | .expect o m k bs =>
    match s.objs[o]? with
    | some (some obj) =>
      match obj.expect env.nightly m k bs s.world with
      | some r => (.unit r.1 false, { s with objs := s.objs.set o (some r.2.1), world := r.2.2 })
      | none => (.invalid, s)
    | _ => (.invalid, s)
  | .call o m k tid args upd =>
    match s.objs[o]? with
    | some (some obj) =>
      match obj.call ⟨env.nightly, tid, env.dbg, upd⟩ m k args s.world with
      | some r => (.value r.1, { s with objs := s.objs.set o (some r.2.1), world := r.2.2 })
      | none => (.invalid, s)
    | _ => (.invalid, s)
  | .checkpoint o =>
    match s.objs[o]? with
    | some (some obj) =>
      let r := obj.checkpoint env false
      (.unit r.1.1 r.1.2, { s with objs := s.objs.set o (some r.2) })
    | _ => (.invalid, s)
  | .drop o panicking =>
    match s.objs[o]? with
    | some (some obj) =>
      let r := obj.drop env panicking
      (.unit r.1 r.2, { s with objs := s.objs.set o none })
    | _ => (.invalid, s)
  | .sexpect f k bs =>
    match s.statics[f]? with
    | some sf =>
      let r := sf.expect env.nightly k bs s.world
      (.unit r.1 false, { s with statics := s.statics.set f r.2.1, world := r.2.2 })
    | none => (.invalid, s)
  | .scall f k tid args =>
    match s.statics[f]? with
    | some sf =>
      let r := sf.call ⟨env.nightly, tid, env.dbg, id⟩ k args s.world
      (.value r.1, { s with statics := s.statics.set f r.2.1, world := r.2.2 })
    | none => (.invalid, s)
  | .scheckpoint f =>
    match s.statics[f]? with
    | some sf =>
      let r := sf.checkpoint env false
      (.unit r.1.1 r.1.2, { s with statics := s.statics.set f r.2 })
    | none => (.invalid, s)
  | .sdrop f panicking =>
    match s.statics[f]? with
    | some sf =>
      let r := sf.dropContext env panicking
      (.unit r.1.1 r.1.2, { s with statics := s.statics.set f r.2 })
    | none => (.invalid, s)
  | .mcheckpoint fs =>
    let r := checkpointModule env fs s.statics
    (match r.1 with | some u => .unit u.1 u.2 | none => .invalid, { s with statics := r.2 })

/-- Run a program; the observations in order, and the final state. -/
def Sys.run (env : Env V) : List (Op V) → Sys V → List (Obs V) × Sys V
  | [], s => ([], s)
  | op :: ops, s =>
    let r := s.step env op
    let t := Sys.run env ops r.2
    (r.1 :: t.1, t.2)

end Mockall
