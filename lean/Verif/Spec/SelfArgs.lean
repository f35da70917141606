import Verif.Spec.Scopes
import Verif.Spec.Struct

/-! # The arguments of a mock struct -/

namespace Mockall.Spec

open Derive

/-- An argument for a parameter, by kind; a constant may look like a type. -/
inductive FitsParam : GParam → GArg → Prop
  | lt (p l) : FitsParam (.lt p) (.lt l)
  | ty (p t) : FitsParam (.ty p) (.ty t)
  | const (i t e) : FitsParam (.const i t) (.const e)
  | name (i t u) : FitsParam (.const i t) (.ty u)

/-- In `Foo<args>` the type parameter `n` of `Foo` is `a`. -/
inductive StandsFor : List GParam → List GArg → Ident → GArg → Prop
  | here (p ps a as) : StandsFor (.ty p :: ps) (a :: as) p.id a
  | there (p ps b as n a) : StandsFor ps as n a → StandsFor (p :: ps) (b :: as) n a

/-- In `Foo<args>` the argument `x` that is written in the definition of `Foo` is `y`. -/
inductive InstanceOf (ps : List GParam) (as : List GArg) : GArg → GArg → Prop
  | static : InstanceOf ps as (.lt "static") (.lt "static")
  | param (n a) (h : StandsFor ps as n a) : InstanceOf ps as (.ty (.name n)) a

end Mockall.Spec
