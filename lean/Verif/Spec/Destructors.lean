import Verif.Rt.Destructors
import Verif.Spec.Builders

/-! # Specification: which threads must not be left

Read off the builder calls made on an expectation: the threads of the single threaded closures it still
holds. -/

namespace Mockall.Spec

variable {V : Type}

/-- What a builder call says about the thread of the argument matcher: none for `with` and `withf`, the
registering thread for `withf_st`. -/
def matcherTie : Build V → Option (Option Nat)
  | .with _ => some none
  | .withf _ => some none
  | .withfSt t _ => some (some t)
  | _ => none

/-- The same for the return value of an expectation of the given kind; `used` says whether the expectation
has answered a call, after which a `return_once_st` closure is gone. -/
def returnTie (used : Bool) : RetKind → Build V → Option (Option Nat)
  | .ref, .returnConst _ => some none
  | .refMut, .returning _ => some none
  | .refMut, .returningSt t _ => some (some t)
  | .refMut, .returnVar _ => some none
  | .static, .returning _ => some none
  | .static, .returningSt t _ => some (some t)
  | .static, .returnConst _ => some none
  | .static, .returnConstSt t _ => some (some t)
  | .static, .returnOnce _ => some none
  | .static, .returnOnceSt t _ => some (if used then none else some t)
  | _, _ => none

/-- An expectation built by `chain` holds a single threaded closure of a thread other than `tid`. -/
def Away (tid : Nat) (kind : RetKind) (used : Bool) (chain : List (Build V)) : Prop :=
  ∃ t, t ≠ tid ∧ (lastOf matcherTie none chain = some t ∨ lastOf (returnTie used kind) none chain = some t)

/-- The panics, on thread `tid`, of the destructor of a closure bound to the given thread, if any. -/
def tiedPanics (tid : Nat) : Option Nat → List DropPanic
  | some t => if t = tid then [] else [.wrongThread]
  | none => []

/-- The panics raised by the destructors of one expectation on thread `tid`, in order: that of its
verification if it fails, one for the matcher, one for the return value. -/
def dropPanics (tid : Nat) (kind : RetKind) (used : Bool) (failed : Option Panic) (chain : List (Build V)) :
    List DropPanic :=
  failed.toList.map .verify ++ tiedPanics tid (lastOf matcherTie none chain) ++
    tiedPanics tid (lastOf (returnTie used kind) none chain)

/-- What becomes of a row of destructors, given the panics they would raise, in order: none, the first
one; but if a `Fragile` is destroyed on a foreign thread after the first panic, the process aborts.
(Verification is skipped while panicking.) -/
def fate : List DropPanic → Fate
  | [] => .done
  | p :: rest => if .wrongThread ∈ rest then .aborted else .panicked p

/-- The operations that destroy expectations. -/
def destroys : Op V → Bool
  | .checkpoint _ => true
  | .drop _ _ => true
  | .scheckpoint _ => true
  | .sdrop _ _ => true
  | .mcheckpoint _ => true
  | _ => false

end Mockall.Spec
