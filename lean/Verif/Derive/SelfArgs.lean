import Verif.Derive.Scopes
import Verif.Derive.Struct

/-! # Setters of traits that are implemented for particular arguments of the mock struct (mock_trait.rs:131-175) -/

namespace Mockall.Derive

/-- A lifetime? -/
def GParam.isLt : GParam → Bool
  | .lt _ => true
  | _ => false

/-- The parameters of `g` as arguments, as `#tg` prints them: lifetimes come first. -/
def printedArgs (g : Generics) : List GArg :=
  (g.params.filter (·.isLt) ++ g.params.filter (!·.isLt)).map paramAsArg

/-- How many lifetimes there are in generics, `generics.lifetimes()`. -/
def ltCount (g : Generics) : Nat := (g.params.filter (·.isLt)).length

/-- The arguments of `Expectation` in `MockFunction::expectation_obj`, F:709-734. -/
def MockFn.expectationArgs (f : MockFn) : Option Args → Gen (List GArg)
  | some (.angle l) =>
    if f.isMethodGeneric then throw "specific impls with generic methods are TODO"
    else return List.replicate (ltCount f.egenerics) (.lt "static") ++ l
  | _ => return printedArgs (staticize f.egenerics)

/-- The arguments of `Expectations` in the type of the field for a method that is not generic,
`MockFunction::field_definition`, F:746-763. -/
def MockFn.fieldArgs (f : MockFn) : List GArg := printedArgs (staticize f.egenerics)

/-- The arguments of `Expectation` in the setter of a method, `MockTrait::trait_impl`, mock_trait.rs:147-155. -/
def MockTrait.setterArgs (t : MockTrait) (x : Meth) : Gen (List GArg) :=
  x.fn.expectationArgs (if x.fn.isMethodGeneric then none else some t.selfPath.args)

/-- The code generated for a method in the `impl`s of the trait, mock_trait.rs:161-174: the function itself
(F:474-577), and `foo_context` (F:609-630) or `expect_foo` (F:655-706), with the type parameters that Mockall puts
there.  What the user wrote, such as the arguments of the mock struct or the bounds of the method, is left out. -/
def MockTrait.sites (t : MockTrait) (x : Meth) : List Site :=
  { name := "call", outer := [t.generics, x.fn.sig.generics],
    tys := (typeParams (if x.fn.isMethodGeneric || x.fn.isStatic then x.fn.egenerics else x.fn.callGenerics)).map .name } ::
  if x.fn.isStatic then
    [{ name := "context", outer := [t.generics], tys := (typeParams x.fn.typeGenerics).map .name }]
  else [{ name := "expect", outer := [t.generics, x.fn.callGenerics],
          tys := match x.fn.isMethodGeneric, t.selfPath.args with
            | false, .angle _ => []
            | _, _ => (typeParams (staticize x.fn.egenerics)).map .name }]

end Mockall.Derive
