import Verif.Derive.Scopes
import Verif.Derive.Struct

/-! # The types that the macro declares, with the types in their fields

Types of the standard library and of Mockall are left out around the types of the user. -/

namespace Mockall.Derive

/-- `PhantomData<&'a ()>` or `PhantomData<T>`, S:44-56: the type in it. -/
def GParam.phantomArg : GParam → Ty
  | .lt p => .ref (some p.lt) false (.tuple [])
  | .ty p => .name p.id
  | .const i _ => .name i

namespace MockFn

/-- What is in the fields of the variants of `Rfunc`: F:1778-1785, F:1842-1856, F:1925-1944. -/
def rfuncType (f : MockFn) : Site :=
  match f.kind with
  | .ref => { name := "Rfunc", generics := [f.egenerics], tys := f.ownedOutput :: f.fnParamTys }
  | .refMut => { name := "Rfunc", generics := [f.egenerics], tys := f.argTys ++ f.ownedOutput :: f.fnParamTys }
  | .static => { name := "Rfunc", generics := [f.egenerics], hrtb := f.alifetimes, under := f.argTys ++ [f.output],
                 tys := f.fnParamTys }

/-- The type `MutexGuard<'__mockall_lt, t>`. -/
def guardTy (t : Ty) : Ty := .path false [.mk "MutexGuard" (.angle [.lt "__mockall_lt", .ty t])]

/-- `ExpectationGuard`: F:1453-1456 for functions without generics, F:1513-1517 with `PhantomData<(T, U,)>` for those
with. -/
def guardType (f : MockFn) : Site where
  name := "ExpectationGuard"
  generics := [withGuardLt f.egenerics]
  tys := if f.isExpectationGeneric then [guardTy (.name "GenericExpectations"), .tuple f.fnParamTys]
    else [guardTy (tgTy "Expectations" f.egenerics)]

/-- All structs and enums that `priv_module` (F:824-889) declares for a function of a struct with generics `sg`:
`Matcher` (F:1708-1718), `Common` (F:938-942), `Rfunc`, `Expectation` (F:2020-2023, F:2085-2088, F:2175-2178),
`Expectations` (F:1205), `GenericExpectations` (F:2464-2466), `ExpectationGuard` and `Context` (F:1596-1603). -/
def typeSites (sg : Generics) (f : MockFn) : List Site := [
    { name := "Matcher", generics := [f.cgenerics], hrtb := f.alifetimes, under := f.refPredTys ++ f.predTys,
      tys := f.fnParamTys },
    { name := "Common", generics := [f.cgenerics], tys := [tgTy "Matcher" f.cgenerics] },
    f.rfuncType,
    { name := "Expectation", generics := [f.egenerics],
      tys := [tgTy "Common" f.cgenerics, tgTy "Rfunc" f.egenerics] },
    { name := "Expectations", generics := [f.egenerics], tys := [tgTy "Expectation" f.egenerics] }] ++
  (if f.isStored then [{ name := "GenericExpectations" }] else []) ++
  (if f.isStatic then [
    f.guardType,
    { name := "Context", generics := [f.typeGenerics], tys := (typeParams sg).map .name }] else [])

end MockFn

end Mockall.Derive
