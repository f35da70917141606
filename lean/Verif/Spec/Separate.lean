import Verif.Spec.Reference

/-! # Parts of a program

Some of the mock objects, static methods and sequences of a program. -/

namespace Mockall.Spec

variable {V : Type}

/-- Which objects, static methods and sequences belong to the part. -/
structure Part where
  obj : Nat → Bool
  fn : Nat → Bool
  seq : Nat → Bool

/-- The operation is on the part's mocks.  To make a new object belongs to every part, so that objects keep their
numbers. -/
def Part.mine (P : Part) : Op V → Bool
  | .new _ => true
  | .expect o _ _ _ | .call o _ _ _ _ _ | .checkpoint o | .drop o _ => P.obj o
  | .sexpect f _ _ | .scall f _ _ _ | .scheckpoint f | .sdrop f _ => P.fn f
  | .mcheckpoint fs => fs.all P.fn

/-- The operation keeps the part and the rest of the program apart: expectations of the part's mocks are put into the
part's sequences only, and expectations of other mocks are not; and a module is in the part with all its functions, or
with none. -/
def Part.Splits (P : Part) : Op V → Prop
  | .expect o _ _ bs => ∀ sid, .inSequence sid ∈ bs → P.seq sid = P.obj o
  | .sexpect f _ bs => ∀ sid, .inSequence sid ∈ bs → P.seq sid = P.fn f
  | .mcheckpoint fs => (∀ f ∈ fs, P.fn f = true) ∨ ∀ f ∈ fs, P.fn f = false
  | _ => True

/-- What is seen of the part by a program that sees `xs`. -/
def Part.seen (P : Part) (ops : List (Op V)) (xs : List (Obs V)) : List (Obs V) :=
  ((ops.zip xs).filter fun x => P.mine x.1).map (·.2)

end Mockall.Spec
