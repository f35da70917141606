import Verif.Derive.Used
import Verif.Spec.Scopes

/-! # Parameters that are used

Rust refuses a struct or an enum with a type parameter or a lifetime that none of its fields uses (E0392).  Bounds do
not count. -/

namespace Mockall.Spec

open Derive

/-- The type is the parameter, a tuple or a reference with it, or has it among its generic arguments. -/
inductive UsesParam (n : Ident) : Ty → Prop
  | self : UsesParam n (.name n)
  | arg {b m l t} (h : .ty t ∈ l) (k : UsesParam n t) : UsesParam n (.path b [.mk m (.angle l)])
  | tuple {l t} (h : t ∈ l) (k : UsesParam n t) : UsesParam n (.tuple l)

/-- The fields of the type use all its type parameters. -/
def UsesTypes (s : Site) : Prop :=
  ∀ g ∈ s.generics, ∀ n, HasTyParam g n → ∃ t ∈ s.tys ++ s.under, UsesParam n t

/-- The fields of the type use the lifetime, which is not another one of a `for<..>`. -/
def UsesLt (s : Site) (a : Lt) : Prop :=
  (∃ t ∈ s.tys, a ∈ freeLts t) ∨ ((∃ t ∈ s.under, a ∈ freeLts t) ∧ a ∉ s.hrtb.map LtParam.lt)

/-- The fields of the type use all its lifetimes. -/
def UsesLts (s : Site) : Prop := ∀ g ∈ s.generics, ∀ a ∈ lifetimes g, UsesLt s a

/-- The field of a struct uses the parameter. -/
def FieldUses (f : Field) : GParam → Prop
  | .lt p => ∃ q, f.ty = .phantom q ∧ p.lt ∈ freeLts q.phantomArg
  | .ty p => ∃ q, f.ty = .phantom q ∧ UsesParam p.id q.phantomArg
  | .const _ _ => True

end Mockall.Spec
