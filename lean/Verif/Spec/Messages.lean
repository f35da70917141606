import Verif.Spec.Builders

/-! # Specification of panic messages

What a message must say: the function, the arguments of the call, the matcher of the expectation; and
where a panic that is not mockall's comes from. -/

namespace Mockall.Spec

variable {V : Type}

/-- The text `p` occurs in the text `m`. -/
def Mentions (m p : String) : Prop := ∃ a b, m = a ++ p ++ b

/-- A call written as `name(arg, arg)`. -/
def callText (name : String) (shown : List String) : String := name ++ "(" ++ ", ".intercalate shown ++ ")"

/-- How an argument is shown: its `Debug` form if its type has one, otherwise `?`. -/
def shownAs : Option String → String
  | some d => d
  | none => "?"

/-- The description of a matcher. -/
def descriptionOf : Build V → Option String
  | .with ps => some (", ".intercalate (ps.map Pred.descr))
  | .withf _ => some "<function>"
  | .withfSt _ _ => some "<single threaded function>"
  | _ => none

/-- The description of the matcher of an expectation built by a chain. -/
def describe (chain : List (Build V)) : String := lastOf descriptionOf "<anything>" chain

/-- The user code handed to a builder call raises this panic for some arguments. -/
def Raises (p : Panic) : Build V → Prop
  | .with ps => ∃ q ∈ ps, ∃ v, q.eval v = .error p
  | .withf f => ∃ as, f as = .error p
  | .withfSt _ f => ∃ as, f as = .error p
  | .returning f => ∃ h as, f.run h as = .error p
  | .returningSt _ f => ∃ h as, f.run h as = .error p
  | .returnOnce f => ∃ as, f.run as = .error p
  | .returnOnceSt _ f => ∃ as, f.run as = .error p
  | _ => False

/-- The thread a single threaded builder call was made on. -/
def registeredOn : Build V → Option Nat
  | .withfSt t _ => some t
  | .returningSt t _ => some t
  | .returnConstSt t _ => some t
  | .returnOnceSt t _ => some t
  | _ => none

/-- The text of a failed verification: the function, the matcher, the number of calls `n` and the bound
of the window `lo ..= hi` that it violates. -/
def Unmet (name descr : String) (lo hi n : Nat) (msg : String) : Prop :=
  (n < lo ∧ msg = name ++ ": Expectation(" ++ descr ++ ") called " ++ toString n ++
    " time(s) which is fewer than expected " ++ toString lo) ∨
  (hi < n ∧ msg = name ++ ": Expectation(" ++ descr ++ ") called " ++ toString n ++
    " time(s) which is more than expected " ++ toString hi)

end Mockall.Spec
