import Verif.Spec.Attrs
import Verif.Spec.Module
import Verif.Spec.Objects
import Verif.Spec.Types
import Verif.Derive.Mockable

/-! # What `#[automock]` makes of a trait -/

namespace Mockall.Spec

open Derive

/-! ## The trait -/

/-- The methods of a trait. -/
def traitFns (l : List TraitItem) : List TraitFn := l.filterMap fun | .fn f => some f | _ => none

/-- The constants of a trait. -/
def traitConstants (l : List TraitItem) : List TraitConst := l.filterMap fun | .const c => some c | _ => none

/-- The associated types of a trait. -/
def traitTypeItems (l : List TraitItem) : List TraitType := l.filterMap fun | .type c => some c | _ => none

/-- Lifetimes come first among the parameters, as Rust's grammar demands. -/
def LtsFirst (l : List GParam) : Prop :=
  ∃ ls ts, l = ls ++ ts ∧ (∀ p ∈ ls, ∃ q, p = .lt q) ∧ ∀ p ∈ ts, ∀ q, p ≠ .lt q

/-! ## What becomes of signatures

`A` removes associated types, `R` replaces `Self`. -/

/-- The change on the type that is returned. -/
def onRet (A : Ty → Ty) : Ret → Ret
  | .unit => .unit
  | .ty t => .ty (A t)

/-- The arguments; `ls` are the lifetimes of trait objects. -/
inductive MockArgs (A : Ty → Ty) (R : Rewrite) : List FnArg → List FnArg → List Lt → Prop
  | nil : MockArgs A R [] [] []
  | receiver (r m m' c u) {as as' ls} (hm : r ≠ none → m' = m) (hs : MockArgs A R as as' ls) :
    MockArgs A R (.receiver r m c u :: as) (.receiver r m' c (if c then rewrite R u else u) :: as') ls
  | typed (a m m' i u u') {as as' ls} (h : Explicit (objectLt i) (rewrite R (A u)) u') (h0 : implicits u' = 0)
    (hs : MockArgs A R as as' ls) :
    MockArgs A R (.typed a (.ident false m i false) u :: as) (.typed a (.ident false m' i false) u' :: as')
      (List.replicate (implicits (rewrite R (A u))) (objectLt i) ++ ls)

/-- The type returned. -/
def MockRet (A : Ty → Ty) (R : Rewrite) (r r' : Ret) : Prop :=
  ∃ q, Returns (onRet A r) q ∧ r' = rewriteRet anonRewrite (rewriteRet R q)

/-- A bound on the type `Self`. -/
def OnSelf (w : WPred) : Prop := ∃ ls bs, w = .ty ls (.name "Self") bs

/-- The signature. -/
structure MockSig (A : Ty → Ty) (R : Rewrite) (s s' : Sig) : Prop where
  name : s'.ident = s.ident
  inputs : ∃ ls, MockArgs A R s.inputs s'.inputs ls ∧
    s'.generics.params = s.generics.params ++ ls.map fun l => .lt { lt := l }
  preds : Minus OnSelf (s.generics.preds.getD []) (s'.generics.preds.getD [])
  output : MockRet A R s.output s'.output

/-- `g` implements the method `f` of the trait. -/
structure MocksFn (A : Ty → Ty) (R : Rewrite) (f : TraitFn) (g : FnItem) : Prop where
  name : g.name = f.sig.ident
  vis : g.head.vis = .inherited
  qual : g.head.qual = f.qual
  active : ∀ c : Config, c.Plain f.attrs → c.active g.attrs = c.active f.attrs
  sig : ∃ s, g.head.sig = some s ∧ MockSig A R f.sig s
  attrs : (∀ a ∈ f.attrs, Plain a) → Without (Stripped true true true) f.attrs g.attrs

/-- The value of the constant is its default. -/
structure MocksConst (c : TraitConst) (d : ConstItem) : Prop where
  attrs : d.attrs = c.attrs
  vis : d.vis = .inherited
  name : d.id = c.id
  ty : d.ty = c.ty
  value : c.dflt = some d.value

/-- The type is the one given. -/
structure MocksType (σ : Ident → Option Ty) (c : TraitType) (d : TypeItem) : Prop where
  attrs : d.attrs = c.attrs
  name : d.id = c.id
  ty : σ c.id = some d.ty

/-- The traits that are implemented. -/
def implemented (l : List Item) : List TraitPath :=
  l.filterMap fun | .impl _ _ (some p) _ => some p | _ => none

/-- What has to change is not where the macros do not look, see C42, C43 and C64. -/
structure Visible (A : Ty → Ty) (R : Rewrite) (s : Sig) : Prop where
  arg : ∀ a p u, .typed a p u ∈ s.inputs → All NotSelf (unseen selfBlind (A u)) ∧ hidden (rewrite R (A u)) = 0
  receiver : ∀ r m u, .receiver r m true u ∈ s.inputs → All NotSelf (unseen selfBlind u)
  output : ∀ u q, s.output = .ty u → Returns (.ty (A u)) (.ty q) →
    All NotSelf (unseen selfBlind q) ∧ All NotAnon (unseen anonBlind (rewrite R q))

/-- The associated types are not where the macros do not look, see C51. -/
structure VisibleAssoc (s : Sig) : Prop where
  arg : ∀ a p u, .typed a p u ∈ s.inputs → All (Lacks "Self") (unseen substBlind u)
  output : ∀ u, s.output = .ty u → All (Lacks "Self") (unseen substBlind u)

end Mockall.Spec
