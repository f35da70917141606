import Verif.Derive.Double

/-! # What a `use` declaration means -/

namespace Mockall.Spec

open Derive Double

/-- A name brought into scope: the path of the item and the local name. -/
structure Binding where
  path : List String
  local_ : String
  deriving DecidableEq

/-- `name`, or the last segment of the prefix for `self`: `use a::b::{self}` imports `a::b` as `b`. -/
def bindName (pre : List String) (i : String) (as : String) : Binding :=
  if i = "self" then ⟨pre, as⟩ else ⟨pre ++ [i], as⟩

mutual
/-- The names a `use` tree without globs brings into scope, in order; `pre` is the path so far. -/
def bindings (pre : List String) : UseTree → List Binding
  | .path i t => bindings (pre ++ [i.name]) t
  | .name i => [bindName pre i.name (if i.name = "self" then pre.getLastD "self" else i.name)]
  | .rename i a => [bindName pre i.name a.name]
  | .glob => []
  | .group l => bindingss pre l
def bindingss (pre : List String) : List UseTree → List Binding
  | [] => []
  | t :: l => bindings pre t ++ bindingss pre l
end

/-- The name of the mock of an item: `MockFoo` for the type `Foo`, `mock_foo` for the module `foo`. -/
def mockName (isUpper : Char → Bool) (n : String) : String :=
  if n.toList.head?.any isUpper then "Mock" ++ n else "mock_" ++ n

/-- The mock of an item is next to it. -/
def mockOf (isUpper : Char → Bool) (b : Binding) : Binding :=
  ⟨b.path.dropLast ++ [mockName isUpper (b.path.getLastD "")], b.local_⟩

mutual
/-- There is a `*`. -/
def HasGlob : UseTree → Prop
  | .glob => True
  | .path _ t => HasGlob t
  | .group l => HasGlobs l
  | .name _ => False
  | .rename _ _ => False
def HasGlobs : List UseTree → Prop
  | [] => False
  | t :: l => HasGlob t ∨ HasGlobs l
end

mutual
/-- The leaves of the tree are ordinary names: neither `self` nor raw, nor empty. -/
def Ordinary : UseTree → Prop
  | .glob => True
  | .path _ t => Ordinary t
  | .group l => Ordinarys l
  | .name i => i.name ≠ "self" ∧ i.raw = false ∧ i.name ≠ ""
  | .rename i _ => i.name ≠ "self" ∧ i.raw = false ∧ i.name ≠ ""
def Ordinarys : List UseTree → Prop
  | [] => True
  | t :: l => Ordinary t ∧ Ordinarys l
end

mutual
/-- Every identifier has a character. -/
def NonEmpty : UseTree → Prop
  | .glob => True
  | .path _ t => NonEmpty t
  | .group l => NonEmptys l
  | .name i => i.name ≠ ""
  | .rename i _ => i.name ≠ ""
def NonEmptys : List UseTree → Prop
  | [] => True
  | t :: l => NonEmpty t ∧ NonEmptys l
end

end Mockall.Spec
