import Verif.Rt.Async

/-! # When the calls of a program with futures take place -/

namespace Mockall.Spec

variable {V : Type}

/-- The futures a program makes, in order. -/
def made (l : List (AOp V)) : List (Callee × List V) :=
  l.filterMap fun | .start c args => some (c, args) | _ => none

/-- Future `n` was polled or dropped, after it was made. -/
def Used (n : Nat) (l : List (AOp V)) : Prop :=
  ∃ before op after, l = before ++ op :: after ∧ n < (made before).length ∧
    ((∃ tid upd, op = .poll n tid upd) ∨ op = .discard n)

open Classical in
/-- What operation `op`, after `before`, amounts to if calls of `async fn`s take place at the first poll. -/
noncomputable def effect (before : List (AOp V)) : AOp V → Option (Op V)
  | .plain op => some op
  | .poll n tid upd =>
    match (made before)[n]? with
    | some (c, args) => if Used n before then none else some (c.op tid args upd)
    | none => none
  | .start _ _ => none
  | .discard _ => none

/-- The same program without futures. -/
noncomputable def effectsFrom : List (AOp V) → List (AOp V) → List (Op V)
  | _, [] => []
  | before, op :: l => (effect before op).toList ++ effectsFrom (before ++ [op]) l

/-- The same program without futures: every call of an `async fn` is where its future is polled first. -/
noncomputable def effects (l : List (AOp V)) : List (Op V) := effectsFrom [] l

/-- The observations that come from mocks. -/
def seen (l : List (AObs V)) : List (Obs V) := l.filterMap fun | .obs o => some o | _ => none

end Mockall.Spec
