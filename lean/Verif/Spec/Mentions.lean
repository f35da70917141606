import Verif.Spec.Scopes

/-! # Generated types and what their declarations ask for -/

namespace Mockall.Spec

open Derive

/-- The names of the types with parameters that are generated for a function. -/
def ownTypes : List Ident :=
  ["Rfunc", "Matcher", "Common", "Expectation", "Expectations", "ExpectationGuard", "Context"]

/-- The piece of code declares a type of this name, with these generics. -/
def DeclaresOwn (s : Site) (n : Ident) (g : Generics) : Prop := s.name = n ∧ s.generics.head? = some g

/-- No type that the user wrote in the signature, and no type parameter, has one of these names. -/
def NamesFree (f : MockFn) : Prop :=
  ∀ n ∈ ownTypes, ¬ HasTyParam f.egenerics n ∧
    ∀ t ∈ f.argTys ++ f.predTys ++ f.refPredTys ++ [f.output, f.ownedOutput], ∀ args, t ≠ .path false [.mk n args]

/-- What sort of parameter an argument can be given for. -/
def argKind : GArg → Option ParamKind
  | .lt _ => some .lt
  | .ty _ => some .ty
  | .const _ => some .const
  | _ => none

/-- One argument for each parameter, of its sort; no `<..>` if there are no parameters. -/
def ArgsFit (g : Generics) : Args → Prop
  | .none => g.params = []
  | .angle l => g.params ≠ [] ∧ l.map argKind = g.params.map fun p => some (GParam.key p).1
  | .paren _ _ => False

/-- The bound `n: x` is written around the piece of code. -/
def Site.bounds (s : Site) (n : Ident) (x : Bound) : Prop := ∃ g ∈ s.outer ++ s.generics, TyBound g n x

/-- The predicate `t: x` is in a where clause around the piece of code, perhaps after a `for<..>`. -/
def Site.wheres (s : Site) (t : Ty) (x : Bound) : Prop := ∃ g ∈ s.outer ++ s.generics, ∃ ls, WhereTy g ls t x

/-- All that the generics ask of types holds around the piece of code. -/
def Granted (s : Site) (g : Generics) : Prop :=
  (∀ n x, TyBound g n x → Site.bounds s n x) ∧ ∀ ls t x, WhereTy g ls t x → Site.wheres s t x

/-- In modules nested by `gens` inside of `P`, the bound `x'` means what `x` means in `P`; for those `x` whose names keep
their meaning there (see C41). -/
def MeansSameBound (levels : Nat) (x x' : Bound) : Prop :=
  ∀ (P : Place) (gens : List Module), gens.length = levels → (∀ u ∈ usesBound true x, u.Good gens) →
    denoteBound (P.nest gens) x' = denoteBound P x

end Mockall.Spec
