import Verif.Conc.StaticNested

/-! # Mock objects and static methods together

`Conc/Nested.lean` has methods of mock objects only, `Conc/StaticNested.lean` has static methods only.  Here any number
of threads use both.  Predicates, return closures and code that runs while an `ExpectationGuard` lives may call methods
of objects and use static methods, whichever of the two they belong to, to any depth.  Sequences are shared by all:
expectations of objects and of static methods may be in one sequence.

Each kind of operation makes the steps that it makes in those files.  Simplifications: those of both files, except
that methods of objects are used now. -/

namespace Mockall

variable {V : Type}

/-- Facts fixed while the machine runs: those of `CEnv` about the objects, and the iteration order of hash maps. -/
structure UEnv (V : Type) where
  vec : Nat → List Nat
  info : Nat → FnInfo V
  nightly : Bool
  dbg : V → String
  ord : GMap V → GMap V

/-- As seen by methods of objects. -/
def UEnv.obj (env : UEnv V) : CEnv V := ⟨env.vec, env.info, env.nightly, env.dbg⟩

/-- As seen by static methods. -/
def UEnv.stat (env : UEnv V) : Env V := ⟨env.nightly, env.dbg, env.ord⟩

/-- An operation: a call of a method of an object, or an operation on a static method. -/
inductive Ref
  | call (i : Nat)
  | op (i : Nat)
  deriving DecidableEq

/-- The expectations of the objects (F:938, F:2177), the static methods with the operation that holds the mutex of
each (F:1400-1406, F:1478-1482), the rest of the state, all calls and all operations on static methods begun so far, and in
which order they were begun, oldest first. -/
structure UState (V : Type) where
  heap : Nat → Cell V
  fns : Nat → StaticFn V
  held : Nat → Option Nat
  world : World V
  calls : List (Act V)
  ops : List (TAct V)
  order : List Ref

/-- The part that methods of objects deal with. -/
def UState.objs (s : UState V) : CState V := ⟨⟨s.heap, s.world.seqs, s.world.runs⟩, s.calls⟩

/-- The part that static methods deal with. -/
def UState.stats (s : UState V) : TState V := ⟨s.fns, s.held, s.world, s.ops⟩

/-- What user code can run under a lock of: an expectation of an object, or a static method. -/
inductive Res
  | exp (a : Nat)
  | fn (f : Nat)
  deriving DecidableEq

/-- An operation: its thread, whether it is over, and under whose lock it executes user code, if it does
(`Act.user`, `TAct.user`). -/
structure View where
  tid : Nat
  over : Bool
  user : Option Res

/-- See `View`. -/
def UState.view (s : UState V) : Ref → Option View
  | .call i => s.calls[i]?.map fun x => ⟨x.tid, x.finished, (x.user s.objs.mem).map .exp⟩
  | .op i => s.ops[i]?.map fun x => ⟨x.act.tid, x.finished, if x.user s.stats then some (.fn x.fn) else none⟩

/-- What the scheduler does next: thread `tid` calls method `meth` of an object, or begins an operation on static
method `f`; or the operation that was begun as number `p` makes one step, in which user code, if it ends with this
step, comes to `ans`. -/
inductive USched (V : Type)
  | call (meth tid : Nat) (args : List V)
  | op (tid f : Nat) (op : SOp V)
  | step (p : Nat) (ans : Answer V)

/-- Is number `p` the innermost operation of thread `tid` that is not over? -/
def UState.innermost (s : UState V) (p tid : Nat) : Bool :=
  (s.order.drop (p + 1)).all fun r => match s.view r with | some v => v.over || v.tid != tid | none => true

/-- May thread `tid` begin an operation?  Only if it is in none, or in user code. -/
def UState.mayStart (s : UState V) (tid : Nat) : Bool :=
  s.order.all fun r => match s.view r with | some v => v.over || v.tid != tid || v.user.isSome | none => true

/-- One step of call number `i`, as in `Conc/Nested.lean`. -/
def UState.stepCall (env : UEnv V) (s : UState V) (i : Nat) (x : Act V) (ans : Answer V) : UState V :=
  match x.step env.obj i (s.objs.mem.scripted ans) with
  | none => s
  | some r =>
    { s with
      heap := (s.objs.mem.restored r.2).heap
      world := { s.world with seqs := r.2.seqs, runs := r.2.runs }
      calls := s.calls.set i r.1 }

/-- One step of operation number `i` on a static method, as in `Conc/StaticNested.lean`. -/
def UState.stepOp (env : UEnv V) (s : UState V) (i : Nat) (x : TAct V) (ans : Answer V) : UState V :=
  match s.stats.stepAct env.stat i x ans with
  | none => s
  | some t => { s with fns := t.fns, held := t.held, world := t.world, ops := t.acts }

/-- One scheduling decision. -/
def UState.step (env : UEnv V) (s : UState V) : USched V → UState V
  | .call meth tid args =>
    if s.mayStart tid then
      { s with calls := s.calls ++ [Act.start env.obj meth tid args], order := s.order ++ [.call s.calls.length] }
    else s
  | .op tid f op =>
    if s.mayStart tid then
      { s with ops := s.ops ++ [⟨f, ⟨tid, op, op.start⟩⟩], order := s.order ++ [.op s.ops.length] }
    else s
  | .step p ans =>
    match s.order[p]? with
    | none => s
    | some (.call i) =>
      match s.calls[i]? with
      | none => s
      | some x => if s.innermost p x.tid then s.stepCall env i x ans else s
    | some (.op i) =>
      match s.ops[i]? with
      | none => s
      | some x => if s.innermost p x.act.tid then s.stepOp env i x ans else s

/-- Run a schedule. -/
def UState.run (env : UEnv V) (sch : List (USched V)) (s : UState V) : UState V := sch.foldl (UState.step env) s

/-- At rest: these expectations of objects, these static methods, nobody uses them. -/
def UState.rest (heap : Nat → Cell V) (fns : Nat → StaticFn V) (w : World V) : UState V :=
  ⟨heap, fns, fun _ => none, w, [], [], []⟩

end Mockall
