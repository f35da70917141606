import Verif.Rt.System
import Verif.Lemmas.Target

/-! # Asynchronous methods

The mock of an `async fn` is an `async fn` with the same body as other mocks (F:487-577: `#sig` keeps `async`,
and so does `async_trait`, which is left on the generated `impl`, mockable_struct.rs:373, mock_trait.rs:135).
Calling it makes a future that owns the arguments and does nothing; the body runs when the future is polled
for the first time, on the thread that polls it.  There is no `await` in the body, so that poll either finishes
it or panics.  Polling it again panics, which is what `rustc` makes of an `async fn`. -/

namespace Mockall

variable {V : Type}

/-- A future of a mocked function: what was called with what, and whether it has not run yet. -/
structure Fut (V : Type) where
  callee : Callee
  args : List V
  fresh : Bool

/-- An operation of a program with futures, which are numbered in the order in which they are made. -/
inductive AOp (V : Type)
  /-- anything else -/
  | plain (op : Op V)
  /-- call an `async fn` -/
  | start (c : Callee) (args : List V)
  /-- poll a future on thread `tid` -/
  | poll (n tid : Nat) (upd : V → V)
  /-- drop a future -/
  | discard (n : Nat)

/-- What is seen. -/
inductive AObs (V : Type)
  /-- of an operation, or of a poll that runs the body -/
  | obs (o : Obs V)
  /-- a future was made or dropped -/
  | silent
  /-- the panic of a poll after the first -/
  | resumed
  /-- there is no such future; not expressible in Rust -/
  | invalid

/-- The state: that of the mocks, and the futures; `none` if dropped. -/
structure ASys (V : Type) where
  sys : Sys V
  futs : List (Option (Fut V))

/-- At the start there are no futures. -/
def ASys.init (sts : List (MethodInfo V)) : ASys V := ⟨Sys.init sts, []⟩

/-- Run one operation. -/
def ASys.step (env : Env V) (a : ASys V) : AOp V → AObs V × ASys V
  | .plain op => (.obs (a.sys.step env op).1, { a with sys := (a.sys.step env op).2 })
  | .start c args => (.silent, { a with futs := a.futs ++ [some ⟨c, args, true⟩] })
  | .poll n tid upd =>
    match a.futs[n]? with
    | some (some f) =>
      if f.fresh then
        let r := a.sys.step env (f.callee.op tid f.args upd)
        (.obs r.1, ⟨r.2, a.futs.set n (some { f with fresh := false })⟩)
      else (.resumed, a)
    | _ => (.invalid, a)
  | .discard n =>
    match a.futs[n]? with
    | some (some _) => (.silent, { a with futs := a.futs.set n none })
    | _ => (.invalid, a)

/-- Run a program; the observations in order, and the final state. -/
def ASys.run (env : Env V) : List (AOp V) → ASys V → List (AObs V) × ASys V
  | [], a => ([], a)
  | op :: ops, a =>
    let r := a.step env op
    let t := ASys.run env ops r.2
    (r.1 :: t.1, t.2)

end Mockall
