import Verif.Conc.Static
import Verif.Rt.System

/-! # Drops of a `Context` by a panicking thread, as two operations -/

namespace Mockall.Spec.Unwind

variable {V : Type}

/-- An operation of a sequential program, or one of two parts of the drop of a `Context` of method `f` by a panicking
thread (F:1631-1650). -/
inductive Part (V : Type)
  | op (o : Op V)
  | clear (f : Nat)
  | drop (f : Nat)

/-- `clear` clears the poison flag and nothing else.  `drop` does nothing if the flag is set again; otherwise it is the
drop of a `Context` as in a sequential program. -/
def Part.step (env : Env V) (s : Sys V) : Part V → Obs V × Sys V
  | .op o => s.step env o
  | .clear f =>
    match s.statics[f]? with
    | none => (.invalid, s)
    | some sf => (.unit (.ok ()) false, { s with statics := s.statics.set f { sf with poison := false } })
  | .drop f =>
    match s.statics[f]? with
    | none => (.invalid, s)
    | some sf => if sf.poison then (.unit (.ok ()) false, s) else s.step env (.sdrop f true)

/-- One part after the other: what each reports, and the state at the end. -/
def Part.run (env : Env V) : List (Part V) → Sys V → List (Obs V) × Sys V
  | [], s => ([], s)
  | p :: ps, s =>
    let r := p.step env s
    let t := Part.run env ps r.2
    (r.1 :: t.1, t.2)

/-- When the operation with number `id` takes effect; a drop by a panicking thread also has an earlier effect. -/
inductive Ev
  | clear (id : Nat)
  | main (id : Nat)
  deriving DecidableEq

/-- The number of the operation. -/
def Ev.id : Ev → Nat
  | .clear id => id
  | .main id => id

/-- The same operation in a sequential program. -/
def mainPart (f : Nat) (act : SAct V) : Part V :=
  match act.op with
  | .call k args => .op (.scall f k act.tid args)
  | .expect k bs => .op (.sexpect f k bs)
  | .checkpoint => .op (.scheckpoint f)
  | .dropContext => .op (.sdrop f false)
  | .dropPanicking => .drop f

/-- What an effect of an operation is in a sequential program. -/
def part (f : Nat) (s : SState V) : Ev → Option (Part V)
  | .clear id => (s.acts[id]?).map fun _ => .clear f
  | .main id => (s.acts[id]?).map (mainPart f)

/-- The sequential program that these effects amount to. -/
def program (f : Nat) (s : SState V) (lin : List Ev) : List (Part V) := lin.filterMap (part f s)

/-- `x` comes before `y`. -/
def Before (l : List Ev) (x y : Ev) : Prop := ∃ a b c, l = a ++ x :: b ++ y :: c

end Mockall.Spec.Unwind
