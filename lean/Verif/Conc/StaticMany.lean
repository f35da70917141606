import Verif.Conc.StaticNested

/-! # Concurrent use of any number of static methods

Every static method has a mutex of its own (F:1465-1473, F:1486-1493); sequences are shared: expectations of several
methods may be in one sequence, whose `satisfaction_level` is an atomic that no mutex protects (L:1699-1715).

One step of this machine is one step of `Conc/Static.lean`, on the method that the operation is about.  Between
two steps of an operation any other operation can make steps: one on the same method only while it does not need the
mutex, one on another method at any time.  Simplifications: those of `Conc/Static.lean`, except that the sequences are
used by all methods; user code does not use mocks (see `Conc/StaticNested.lean` for that). -/

namespace Mockall

variable {V : Type}

/-- All static methods, the rest of the state, which operation holds the mutex of each method, and all operations
begun so far, oldest first. -/
structure ManyState (V : Type) where
  statics : List (StaticFn V)
  world : World V
  held : Nat → Option Nat
  acts : List (TAct V)

/-- What the scheduler does next: thread `tid` begins an operation on method number `f`, or operation number `id` makes
a step. -/
inductive ManySched (V : Type)
  | start (tid f : Nat) (op : SOp V)
  | step (id : Nat)

/-- One step of operation number `id`: that of `Conc/Static.lean` on its method; `none` if it is over, or waits for the
mutex. -/
def ManyState.stepAct (env : Env V) (s : ManyState V) (id : Nat) (x : TAct V) : Option (ManyState V) :=
  match s.statics[x.fn]? with
  | none => none
  | some sf =>
    (x.act.step env id ⟨sf, s.world, s.held x.fn, s.acts.map TAct.act⟩).map fun t => {
      statics := s.statics.set x.fn t.sf
      world := t.world
      held := fun g => if g = x.fn then t.held else s.held g
      acts := s.acts.set id { x with act := (t.acts[id]?).getD x.act } }

/-- One scheduling decision.  A thread does one operation at a time. -/
def ManyState.step (env : Env V) (s : ManyState V) : ManySched V → ManyState V
  | .start tid f op =>
    if f < s.statics.length && s.acts.all fun x => x.finished || x.act.tid != tid then
      { s with acts := s.acts ++ [⟨f, ⟨tid, op, op.start⟩⟩] }
    else s
  | .step id =>
    match s.acts[id]? with
    | none => s
    | some x => (s.stepAct env id x).getD s

/-- Run a schedule. -/
def ManyState.run (env : Env V) (sch : List (ManySched V)) (s : ManyState V) : ManyState V :=
  sch.foldl (ManyState.step env) s

/-- At rest, in the middle of a program: nobody uses the methods. -/
def ManyState.rest (s0 : Sys V) : ManyState V := ⟨s0.statics, s0.world, fun _ => none, []⟩

end Mockall
