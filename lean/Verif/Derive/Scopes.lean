import Verif.Derive.Build

/-! # What the code generated for a function declares and uses

For each piece of the code that mentions types of the user (F:474-763, F:824-2546): the generics around it, the
lifetimes of a `for<..>` in front of it, and the types in it.  `#ig` prints the parameters of generics with their
bounds, `#wc` the where clause, `#tg` the parameters alone.  Types that the macro itself brings, such as
`std::result::Result<_, &'static str>` around a type, are left out. -/

namespace Mockall.Derive

/-- A piece of generated code. -/
structure Site where
  /-- where in the macro it is -/
  name : String
  /-- generics around it that the user wrote -/
  outer : List Generics := []
  /-- generics that this code prints, outermost first -/
  generics : List Generics := []
  /-- the lifetimes of `#hrtb` -/
  hrtb : List LtParam := []
  /-- the types after `#hrtb` -/
  under : List Ty := []
  /-- the types elsewhere -/
  tys : List Ty := []

/-- A parameter as an argument, as in `#tg`. -/
def paramAsArg : GParam → GArg
  | .lt p => .lt p.lt
  | .ty p => .ty (.name p.id)
  | .const i _ => .const (.path false [i])

/-- The type `Name #tg`. -/
def tgTy (n : Ident) (g : Generics) : Ty :=
  .path false [.mk n (if g.params = [] then .none else .angle (g.params.map paramAsArg))]

/-- `g` with the parameter `'__mockall_lt`, F:1422-1428, F:1492-1498, F:1559-1572. -/
def withGuardLt (g : Generics) : Generics :=
  { g with angle := true, params := g.params ++ [.lt ⟨"__mockall_lt", []⟩] }

namespace MockFn

/-- `argty`. -/
def argTys (f : MockFn) : List Ty := f.args.map BArg.ty

/-- `predty`. -/
def predTys (f : MockFn) : List Ty := f.args.map BArg.predTy

/-- `refpredty`. -/
def refPredTys (f : MockFn) : List Ty := f.args.map BArg.refPredTy

/-- `fn_params` as types. -/
def fnParamTys (f : MockFn) : List Ty := f.fnParams.map .name

/-- `lg`, `lifetimes_to_generics(&self.f.alifetimes)`. -/
def lg (f : MockFn) : Generics := ltsToGenerics f.alifetimes

/-- `Rfunc`: F:1759-1817, F:1819-1908, F:1910-1996. -/
def rfuncSites (f : MockFn) : List Site :=
  match f.kind with
  | .ref => [
      { name := "Rfunc", generics := [f.egenerics], tys := f.ownedOutput :: f.fnParamTys },
      { name := "Rfunc::call", generics := [f.egenerics, f.lg], tys := [.ref none false f.ownedOutput] }]
  | .refMut => [
      { name := "Rfunc", generics := [f.egenerics], tys := f.argTys ++ f.ownedOutput :: f.fnParamTys },
      { name := "Rfunc::call_mut", generics := [f.egenerics, f.lg], tys := f.argTys ++ [f.output] }]
  | .static => [
      { name := "Rfunc", generics := [f.egenerics], hrtb := f.alifetimes, under := f.argTys ++ [f.output],
        tys := f.fnParamTys },
      { name := "Rfunc::call_mut", generics := [f.egenerics, f.lg], tys := f.argTys ++ [f.output] }]

/-- `Matcher`, F:1654-1757. -/
def matcherSites (f : MockFn) : List Site := [
    { name := "Matcher", generics := [f.cgenerics], hrtb := f.alifetimes, under := f.refPredTys ++ f.predTys,
      tys := f.fnParamTys },
    { name := "Matcher::matches", generics := [f.cgenerics, f.lg], tys := f.predTys.map (.ref none false) }]

/-- `Common`, F:893-1064. -/
def commonSites (f : MockFn) : List Site := [
    { name := "Common", generics := [f.cgenerics], tys := [tgTy "Matcher" f.cgenerics] },
    { name := "Common::matches", generics := [f.cgenerics, f.lg], tys := f.predTys.map (.ref none false) },
    { name := "Common::with", generics := [f.cgenerics], hrtb := f.alifetimes, under := f.predTys },
    { name := "Common::withf", generics := [f.cgenerics], hrtb := f.alifetimes, under := f.refPredTys }]

/-- The return type of `call` and `call_mut` of `Expectation`, F:2028, F:2093-2094, F:2184. -/
def callOutput (f : MockFn) : Ty :=
  match f.kind with
  | .refMut => .ref none true f.ownedOutput
  | _ => f.output

/-- The methods that say what to return: F:2041-2046, F:2109-2136, F:2207-2310. -/
def returnSites (f : MockFn) : List Site :=
  match f.kind with
  | .ref => [{ name := "Expectation::return_const", generics := [f.egenerics], tys := [f.ownedOutput] }]
  | .refMut => [
      { name := "Expectation::return_var", generics := [f.egenerics], tys := [f.ownedOutput] },
      { name := "Expectation::returning", generics := [f.egenerics], tys := f.argTys ++ [f.ownedOutput] }]
  | .static => [
      { name := "Expectation::return_const", generics := [f.egenerics], tys := [f.output] },
      { name := "Expectation::returning", generics := [f.egenerics], hrtb := f.alifetimes,
        under := f.argTys ++ [f.output] }]

/-- `Expectation`, F:1998-2063, F:2065-2152, F:2154-2326, with the methods of F:1067-1189. -/
def expectationSites (f : MockFn) : List Site := [
    { name := "Expectation", generics := [f.egenerics],
      tys := [tgTy "Common" f.cgenerics, tgTy "Rfunc" f.egenerics] },
    { name := "Expectation::call", generics := [f.egenerics, f.lg], tys := f.argTys ++ [f.callOutput] },
    { name := "Expectation::matches", generics := [f.egenerics, f.lg], tys := f.predTys.map (.ref none false) },
    { name := "Expectation::with", generics := [f.egenerics], hrtb := f.alifetimes, under := f.predTys },
    { name := "Expectation::withf", generics := [f.egenerics], hrtb := f.alifetimes,
      under := f.predTys.map (.ref none false) }] ++ f.returnSites

/-- `Expectations`, F:1193-1235, F:2329-2364, F:2367-2403, F:2406-2441. -/
def expectationsSites (f : MockFn) : List Site := [
    { name := "Expectations", generics := [f.egenerics], tys := [tgTy "Expectation" f.egenerics] },
    { name := "Expectations::call", generics := [f.egenerics, f.lg], tys := f.argTys ++ [f.output] }]

/-- Is there a `GenericExpectations`?  F:2449-2454. -/
def isStored (f : MockFn) : Bool := f.isExpectationGeneric && (f.isStatic || f.isMethodGeneric)

/-- The type that `send_syncify` (F:140-171) adds to the where clause, F:672-676, F:2499-2504. -/
def syncTys (f : MockFn) : List Ty := if f.returnRef || f.returnRefmut then [f.ownedOutput] else []

/-- `GenericExpectations`, F:2443-2485, F:2489-2546. -/
def storeSites (f : MockFn) : List Site :=
  if f.isStored then [
    { name := "AnyExpectations", generics := [f.egenerics], tys := tgTy "Expectations" f.egenerics :: f.syncTys },
    { name := "GenericExpectations::call", generics := [f.egenerics],
      tys := f.argTys ++ f.output :: tgTy "Expectations" f.egenerics :: f.fnParamTys },
    { name := "GenericExpectations::expect", generics := [f.egenerics],
      tys := tgTy "Expectation" f.egenerics :: f.syncTys ++ f.fnParamTys }]
  else []

/-- `get_expectations`, F:1434-1439 and F:1505-1508; it has no generics around it. -/
def getSites (f : MockFn) : List Site :=
  if f.isExpectationGeneric then [{ name := "get_expectations" }]
  else [{ name := "get_expectations", tys := [tgTy "Expectations" f.egenerics] }]

/-- `ExpectationGuard`, F:1239-1406, F:1410-1475, F:1479-1545. -/
def guardSites (f : MockFn) : List Site :=
  if f.isStatic then f.getSites ++ [
    { name := "ExpectationGuard", generics := [withGuardLt f.egenerics],
      tys := [tgTy "Expectations" f.egenerics, .ref (some "__mockall_lt") false (.tuple f.fnParamTys)] },
    { name := "ExpectationGuard::with", generics := [withGuardLt f.egenerics], hrtb := f.alifetimes,
      under := f.predTys ++ f.predTys.map (.ref none false), tys := [tgTy "Expectation" f.egenerics] },
    { name := "ExpectationGuard::return_const", generics := [withGuardLt f.egenerics], tys := [f.output] },
    { name := "ExpectationGuard::returning", generics := [withGuardLt f.egenerics], hrtb := f.alifetimes,
      under := f.argTys ++ [f.output] }]
  else []

/-- `Context`, F:1549-1652, of a struct with generics `sg`. -/
def contextSites (sg : Generics) (f : MockFn) : List Site :=
  if f.isStatic then [
    { name := "Context", generics := [f.typeGenerics], tys := (typeParams sg).map .name },
    { name := "Context::expect", generics := [f.typeGenerics, withGuardLt f.callGenerics],
      tys := [tgTy "ExpectationGuard" (withGuardLt f.egenerics)] }]
  else []

/-- Outside of the private module, in the `impl` of the mock struct with generics `sg`: the function itself
(F:474-577), `foo_context` (F:609-630), `expect_foo` (F:655-706) with the
type of F:709-734 (for the mock struct itself, i.e. without `self_args`), and the field (F:746-763). -/
def outsideSites (sg : Generics) (f : MockFn) : List Site :=
  { name := "call", outer := [sg, f.sig.generics],
    tys := [tgTy "call" (if f.isMethodGeneric || f.isStatic then f.egenerics else f.callGenerics)] } ::
  if f.isStatic then [{ name := "context", outer := [sg], tys := [tgTy "Context" f.typeGenerics] }]
  else [
    { name := "expect", outer := [sg], generics := [f.callGenerics],
      tys := tgTy "Expectation" (staticize f.egenerics) :: if f.isMethodGeneric then f.syncTys else [] },
    { name := "field", outer := [sg],
      tys := if f.isMethodGeneric then [] else [tgTy "Expectations" (staticize f.egenerics)] }]

/-- All of `priv_module` (F:824-889), and what is outside of it. -/
def sites (sg : Generics) (f : MockFn) : List Site :=
  f.rfuncSites ++ f.matcherSites ++ f.commonSites ++ f.expectationSites ++ f.expectationsSites ++ f.storeSites ++
    f.guardSites ++ f.contextSites sg ++ f.outsideSites sg

end MockFn

end Mockall.Derive
