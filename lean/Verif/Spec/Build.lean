import Verif.Spec.Args
import Verif.Spec.Names
import Verif.Spec.Generics
import Verif.Derive.Build

/-! # Kinds of return types, predicates and keys -/

namespace Mockall.Spec

open Derive

/-- The function returns a reference, `&'lt T` or `&'lt mut T`, that is not `'static`. -/
def RefReturn (isMut : Bool) (r : Ret) : Prop := ∃ lt e, r = .ty (.ref lt isMut e) ∧ lt ≠ some "static"

/-- The function is a method: it has a `self`. -/
def IsMethod (l : List FnArg) : Prop := ∃ r m c t, .receiver r m c t ∈ l

/-- The receiver is `&self` (`false`) or `&mut self` (`true`). -/
def Receives (isMut : Bool) (l : List FnArg) : Prop := ∃ r c t, .receiver (some r) isMut c t ∈ l

/-- Rust's coercions of references: `&'a T` and `&'a mut T` can be used where `&T` is wanted. -/
inductive Coerces : Ty → Ty → Prop
  | shared (lt m e) : Coerces (.ref lt m e) (.ref none false e)

/-- The type of the expression `x` or `&x` for an `x : t`. -/
def exprTy (byRef : Bool) (t : Ty) : Ty := if byRef then .ref none false t else t

/-- In modules nested by `gens` inside of `P`, `t'` means what `t` means in `P`; for those `t` whose names
keep their meaning there (see C41). -/
def MeansSame (levels : Nat) (t t' : Ty) : Prop :=
  ∀ (P : Place) (gens : List Module), gens.length = levels → (∀ u ∈ uses true t, u.Good gens) →
    denote (P.nest gens) t' = denote P t

/-- How the argument `a` of a function with generics `g` shows up in the mock: under the same name; with
the same type, closures boxed; and what is passed to the predicates fits. -/
inductive ArgBuilt (g : Generics) (levels : Nat) : FnArg → BArg → Prop
  | mk (as p t t') (c : BArg) (hn : SameBinding p c.name) (hb : Boxes g t t')
    (ht : MeansSame levels t' c.ty) (hr : c.refPredTy = .ref none false c.predTy)
    (hc : Coerces (exprTy c.byRef c.ty) c.refPredTy)
    (hp : (∃ lt m, c.ty = .ref lt m c.predTy) ∨ (c.ty = c.predTy ∧ ∀ lt m e, c.ty ≠ .ref lt m e)) :
    ArgBuilt g levels (.typed as p t) c

/-! ## Keys -/

/-- `n` is a type parameter of `g`. -/
def HasTyParam (g : Generics) (n : Ident) : Prop := ∃ p, .ty p ∈ g.params ∧ p.id = n

/-- `std::any::TypeId`: distinct types have distinct ids.  Only tuples are told apart; all other types are
of an arbitrary set. -/
inductive TypeId (C : Type)
  | of (c : C)
  | tuple (l : List (TypeId C))

/-- The id of a type built from type parameters, given those of the parameters. -/
def typeId {C : Type} (σ : Ident → TypeId C) : Ty → Option (TypeId C)
  | .path false [.mk i .none] => some (σ i)
  | .paren t => typeId σ t
  | .tuple l => (ids l).map .tuple
  | _ => none
where
  /-- The elements of a tuple. -/
  ids : List Ty → Option (List (TypeId C))
    | [] => some []
    | t :: l => do return (← typeId σ t) :: (← ids l)

end Mockall.Spec
