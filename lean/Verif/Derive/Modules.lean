import Verif.Spec.Names

/-! # The modules the macros generate, as far as names are concerned -/

namespace Mockall.Derive

open Spec

/-- `MockFunction::priv_module`, F:824-889: the module of one function, generated in the module `at`.
It imports a few names of std and of mockall (F:868-878, with the pseudo crate `<extern>` in front) and
declares its own types: `Rfunc` (F:1778, 1842, 1925), `Matcher` (F:1708), `Common` (F:938),
`Expectation` (F:2020, 2085, 2175), `Expectations` (F:1205); `GenericExpectations` (F:2464) if generic;
`ExpectationGuard` (F:1453, 1513) and `Context` (F:1596) if static.  Everything else comes from
`use super::*`. -/
def privModule (at_ : List Ident) (fn : Ident) (isStatic generic : Bool) : Module where
  name := "__" ++ fn
  own x :=
    let here := at_ ++ ["__" ++ fn]
    if x ∈ ["Rfunc", "Matcher", "Common", "Expectation", "Expectations"] then some (here ++ [x])
    else if x ∈ ["ExpectationGuard", "Context"] ∧ isStatic then some (here ++ [x])
    else if x = "GenericExpectations" ∧ generic then some (here ++ [x])
    else if x = "CaseTreeExt" then some ["<extern>", "mockall", x]
    else if x = "MutexGuard" ∧ isStatic then some ["<extern>", "std", "sync", x]
    else if x = "Mutex" then some ["<extern>", "std", "sync", x]
    else if x = "Box" then some ["<extern>", "std", "boxed", x]
    else if x = "Vec" then some ["<extern>", "std", "vec", x]
    else if x = "mem" then some ["<extern>", "std", x]
    else if x ∈ ["DerefMut", "Range"] then some ["<extern>", "std", "ops", x]
    else none

/-- `MockItemStruct::to_tokens`, S:325-330: the module of one mock struct, generated in the module
`at`; it declares the functions' modules only. -/
def structModule (at_ : List Ident) (name : Ident) (fns : List Ident) : Module where
  name := name
  own x := if x ∈ fns.map ("__" ++ ·) then some (at_ ++ [name, x]) else none

end Mockall.Derive
