import Verif.Rt.Expectations

/-! # Histories of one mocked method

A user program seen from one (non generic) mocked method: a list of operations, run one after the
other on the model, collecting what the user observes.  A panic of an operation is caught and the
program goes on, so the histories include everything `catch_unwind` makes possible. -/

namespace Mockall

variable {V : Type}

/-- An operation on one mocked method: `mock.expect_m().b1(..).b2(..)...` or `mock.m(args)` on some
thread, writing `upd` through a returned `&mut`. -/
inductive MOp (V : Type)
  | expect (bs : List (Build V))
  | call (tid : Nat) (args : List V) (upd : V → V)

/-- What the user sees of an operation. -/
inductive MObs (V : Type)
  | expected (r : Except Panic Unit)
  | returned (r : Except Panic V)

/-- State of one method and the shared world. -/
structure MState (V : Type) where
  exps : List (Expectation V)
  world : World V

/-- A method of a newly created mock: `Expectations::new` (F:1223-1225). -/
def MState.init (w : World V) : MState V := ⟨[], w⟩

/-- Run one operation. -/
def MState.step (nightly : Bool) (dbg : V → String) (info : FnInfo V) (s : MState V) :
    MOp V → MObs V × MState V
  | .expect bs =>
    let (r, es, w) := Expectations.expect nightly info bs s.exps s.world
    (.expected r, ⟨es, w⟩)
  | .call tid args upd =>
    let (r, es, w) := Expectations.method ⟨nightly, tid, dbg, upd⟩ info args s.exps s.world
    (.returned r, ⟨es, w⟩)

/-- Run a whole history. -/
def MState.run (nightly : Bool) (dbg : V → String) (info : FnInfo V) :
    List (MOp V) → MState V → List (MObs V) × MState V
  | [], s => ([], s)
  | op :: ops, s =>
    let (o, s') := s.step nightly dbg info op
    let (os, s'') := MState.run nightly dbg info ops s'
    (o :: os, s'')

end Mockall
