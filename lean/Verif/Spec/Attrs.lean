import Verif.Derive.Attrs

/-! # Which attributes have no place on a mock

By name, as in the comments of D:812-854 and the documentation of `concretize`. -/

namespace Mockall.Spec

open Derive

/-- `#[concretize]`, or a `#[cfg_attr(.., concretize)]`. -/
inductive IsConcretize : Attr → Prop
  | plain (i a) : IsConcretize (.plain i "concretize" a)
  | cfg (p as i a) (h : (i, "concretize", a) ∈ as) : IsConcretize (.cfgAttr p as)

/-- Never emitted. -/
def neverEmitted : List Ident :=
  ["derive", "expect", "inline", "cold", "instrument", "link_name", "auto_enum"]

/-- The attribute is named `n`, maybe by a path: `#[n]`, `#[a::n(..)]`. -/
inductive Named (n : Ident) : Attr → Prop
  | mk (i a) : Named n (.plain i n a)

/-- What is stripped, given whether `doc`, `async_trait` and `must_use` make sense in the place. -/
def Stripped (doc asyncTrait mustUse : Bool) (a : Attr) : Prop :=
  IsConcretize a ∨ (∃ n ∈ neverEmitted, Named n a) ∨
    (doc = false ∧ Named "doc" a) ∨ (asyncTrait = false ∧ Named "async_trait" a) ∨
    (mustUse = false ∧ Named "must_use" a)

/-- `m` is `l` without the elements for which `P`: in order, nothing else missing, nothing added. -/
inductive Without (P : Attr → Prop) : List Attr → List Attr → Prop
  | nil : Without P [] []
  | skip {a l m} : P a → Without P l m → Without P (a :: l) m
  | keep {a l m} : ¬ P a → Without P l m → Without P (a :: l) (a :: m)

/-- Nothing in a `cfg_attr` looks like `concretize` but is not. -/
def Plain : Attr → Prop
  | .plain _ _ _ => True
  | .cfgAttr p as => (∃ i a, (i, "concretize", a) ∈ as) ∨
      ∀ s, s ∈ p ++ as.flatMap (fun (i, l, a) => i ++ l :: a) →
        ¬ ∃ pre post, s.toList = pre ++ "concretize".toList ++ post

end Mockall.Spec
