import Verif.Spec.Separate

/-! # What is left of a program when the past of an object is forgotten -/

namespace Mockall.Spec

variable {V : Type}

/-- All mocks but one object; `seq` says which sequences are not the object's. -/
def Part.without (o : Nat) (seq : Nat → Bool) : Part := ⟨(· != o), fun _ => true, seq⟩

/-- All mocks but one static method; `seq` says which sequences are not the method's. -/
def Part.withoutFn (f : Nat) (seq : Nat → Bool) : Part := ⟨fun _ => true, (· != f), seq⟩

/-- The sequences that the operation puts expectations into are all among `seq`. -/
def Within (seq : Nat → Bool) : Op V → Prop
  | .expect _ _ _ bs | .sexpect _ _ bs => ∀ sid, .inSequence sid ∈ bs → seq sid = true
  | _ => True

end Mockall.Spec
