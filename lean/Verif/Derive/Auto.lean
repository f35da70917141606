import Verif.Derive.Scopes
import Verif.Derive.Struct

/-! # The fields of generated types

What the structs and enums of generated code contain, as far as the traits `Send` and `Sync` depend on it. -/

namespace Mockall.Derive

/-- Types of std and of the crate `fragile`.  `both` are those that are `Send` and `Sync` in any case: `usize`,
`AtomicUsize`, `TypeId` and `&'a ()`. -/
inductive StdTy
  | both | tuple | box | option | vec | range | hashMap | phantomData | mutex | mutexGuard | onceLock | arc | fragile
  deriving DecidableEq

/-- A type in generated code. -/
inductive FTy
  /-- a type of the user -/
  | user (t : Ty)
  /-- a struct or enum of generated code or of mockall.  Generic arguments are left out: they are the parameters of
  the same names (C91). -/
  | item (path : List Ident)
  | std (n : StdTy) (l : List FTy)
  /-- `dyn n + bounds`; the arguments of `n`, as in `dyn Fn(A) -> B`, are left out -/
  | dyn (n : Ident) (bounds : List Ident)

/-- A struct or enum, and the types of all its fields, of all variants. -/
structure Decl where
  path : List Ident
  fields : List FTy

/-- `Box<dyn n + bounds>` -/
def boxDynF (n : Ident) (bounds : List Ident) : FTy := .std .box [.dyn n bounds]

/-- The types of mockall itself: L:1516 (`TimesRange`), L:1579-1583 (`Times`), L:1672 (`Key`), L:1682-1685 (`SeqHandle`),
L:1700-1702 (`SeqInner`), L:1766-1769 (`Sequence`). -/
def libDecls : List Decl := [
  ⟨["mockall", "TimesRange"], [.std .range [.std .both []]]⟩,
  ⟨["mockall", "Times"], [.std .both [], .item ["mockall", "TimesRange"]]⟩,
  ⟨["mockall", "Key"], [.std .both []]⟩,
  ⟨["mockall", "SeqInner"], [.std .both []]⟩,
  ⟨["mockall", "SeqHandle"], [.std .arc [.item ["mockall", "SeqInner"]], .std .both []]⟩,
  ⟨["mockall", "Sequence"], [.std .arc [.item ["mockall", "SeqInner"]], .std .both []]⟩]

/-- Traits that a trait requires: L:1430 (`AnyExpectations`).  Of the others used none requires `Send` or `Sync`. -/
def superTraits (n : Ident) : List Ident := if n = "AnyExpectations" then ["Any", "Send", "Sync"] else []

namespace MockFn

/-- `enum Matcher`, F:1684-1689, F:1708-1718.  With `#[concretize]` the tuple of predicates is `(())` instead. -/
def matcherFields (f : MockFn) : List FTy := [
  boxDynF "Fn" ["Send"],
  .std .fragile [boxDynF "Fn" []],
  .std .box [.std .tuple (f.args.map fun _ => boxDynF "Predicate" ["Send"])],
  boxDynF "Fn" ["Send"]]

/-- `struct Common`, F:938-942; `p` is the path of the private module. -/
def commonFields (p : List Ident) : List FTy := [
  .std .mutex [.item (p ++ ["Matcher"])],
  .std .option [.item ["mockall", "SeqHandle"]],
  .item ["mockall", "Times"]]

/-- `enum Rfunc`, F:1778-1785, F:1842-1856, F:1925-1944. -/
def rfuncFields (f : MockFn) : List FTy :=
  match f.kind with
  | .ref => [
      .std .option [.user f.ownedOutput],
      .user f.ownedOutput,
      .std .mutex [boxDynF "Fn" ["Send"]]]
  | .refMut => [
      .std .option [.user f.ownedOutput],
      boxDynF "FnMut" ["Send", "Sync"], .std .option [.user f.ownedOutput],
      .std .fragile [boxDynF "FnMut" []], .std .option [.user f.ownedOutput],
      .user f.ownedOutput,
      .std .mutex [boxDynF "Fn" ["Send"]]]
  | .static => [
      boxDynF "FnMut" ["Send"],
      .std .fragile [boxDynF "FnMut" []],
      boxDynF "FnOnce" ["Send"],
      .std .fragile [boxDynF "FnOnce" []],
      boxDynF "Fn" ["Send"]]

/-- `struct Expectation`, F:2020-2023, F:2085-2088, F:2175-2178. -/
def expectationFields (f : MockFn) (p : List Ident) : List FTy :=
  .item (p ++ ["Common"]) ::
  match f.kind with
  | .static => [.std .mutex [.item (p ++ ["Rfunc"])]]
  | _ => [.item (p ++ ["Rfunc"])]

/-- `struct GenericExpectations`, F:2464-2467. -/
def storeFields : List FTy := [.std .hashMap [.item ["mockall", "Key"], boxDynF "AnyExpectations" []]]

/-- `struct ExpectationGuard`, F:1453-1456, F:1513-1517. -/
def guardFields (f : MockFn) (p : List Ident) : List FTy :=
  if f.isExpectationGeneric then
    [.std .mutexGuard [.item (p ++ ["GenericExpectations"])], .std .both [],
      .std .phantomData [.std .tuple (f.fnParamTys.map .user)]]
  else [.std .mutexGuard [.item (p ++ ["Expectations"])], .std .both []]

/-- `struct Context`, F:1596-1603. -/
def contextFields : List FTy := [.std .phantomData [boxDynF "Fn" ["Send"]]]

/-- The types of the private module of a function, `MockFunction::priv_module`, F:824-889; `p` is its path. -/
def decls (f : MockFn) (p : List Ident) : List Decl := [
  ⟨p ++ ["Matcher"], f.matcherFields⟩,
  ⟨p ++ ["Common"], commonFields p⟩,
  ⟨p ++ ["Rfunc"], f.rfuncFields⟩,
  ⟨p ++ ["Expectation"], f.expectationFields p⟩,
  ⟨p ++ ["Expectations"], [.std .vec [.item (p ++ ["Expectation"])]]⟩] ++
  (if f.isStored then [⟨p ++ ["GenericExpectations"], storeFields⟩] else []) ++
  (if f.isStatic then [⟨p ++ ["ExpectationGuard"], f.guardFields p⟩, ⟨p ++ ["Context"], contextFields⟩] else [])

/-- The type of the static variable of a static function, F:1434-1439 and F:1505-1508. -/
def staticTy (f : MockFn) (p : List Ident) : FTy :=
  if f.isExpectationGeneric then .std .onceLock [.std .mutex [.item (p ++ ["GenericExpectations"])]]
  else .std .mutex [.item (p ++ ["Expectations"])]

end MockFn

/-! ## What the user gives to expectations -/

/-- A method of expectations that is given a closure or a value. -/
structure Given where
  name : Ident
  /-- the traits that the closure or value must have -/
  demands : List Ident
  /-- the field that it is put into, as a closure; a value given to `return_const` is captured by a closure -/
  field : FTy

/-- `with`, `withf`, `withf_st`: F:909-934, F:1010-1028 (and F:1080-1085, F:1166-1189, F:1269-1274, F:1385-1405). -/
def matcherGiven : List Given := [
  ⟨"with", ["Predicate", "Send"], boxDynF "Predicate" ["Send"]⟩,
  ⟨"withf", ["Fn", "Send"], boxDynF "Fn" ["Send"]⟩,
  ⟨"withf_st", ["Fn"], .std .fragile [boxDynF "Fn" []]⟩]

/-- The methods of F:2109-2136 and F:2207-2310 (and F:1315-1380 for static methods). -/
def returnGiven (f : MockFn) : List Given :=
  match f.kind with
  | .ref => []
  | .refMut => [
      ⟨"returning", ["FnMut", "Send", "Sync"], boxDynF "FnMut" ["Send", "Sync"]⟩,
      ⟨"returning_st", ["FnMut"], .std .fragile [boxDynF "FnMut" []]⟩]
  | .static => [
      ⟨"return_const", ["Clone", "Into", "Send"], boxDynF "FnMut" ["Send"]⟩,
      ⟨"return_const_st", ["Clone", "Into"], .std .fragile [boxDynF "FnMut" []]⟩,
      ⟨"return_once", ["FnOnce", "Send"], boxDynF "FnOnce" ["Send"]⟩,
      ⟨"return_once_st", ["FnOnce"], .std .fragile [boxDynF "FnOnce" []]⟩,
      ⟨"returning", ["FnMut", "Send"], boxDynF "FnMut" ["Send"]⟩,
      ⟨"returning_st", ["FnMut"], .std .fragile [boxDynF "FnMut" []]⟩]

/-! ## The structs of a mock -/

/-- `phantom_fields`, S:31-61, the type of the field for a parameter; const parameters are refused. -/
def phantomTy : GParam → FTy
  | .lt _ => .std .phantomData [.std .both []]
  | .ty p => .std .phantomData [.user (.name p.id)]
  | .const _ _ => .std .tuple []

/-- The type of a field of a struct. -/
def FieldTy.fty : FieldTy → FTy
  | .store m generic => .item (m ++ [if generic then "GenericExpectations" else "Expectations"])
  | .sub n => .item [n]
  | .phantom p => phantomTy p

/-- A struct among the items of a mock, S:335-338, S:430-433. -/
def Item.decl : Item → Option Decl
  | .struct _ n fs => some ⟨[n], fs.map (·.ty.fty)⟩
  | _ => none

/-- The types of the private modules of a mock, S:328-331, S:418-424. -/
def MockItemStruct.modDecls (m : MockItemStruct) : List Decl :=
  m.methods.flatMap (fun x => x.fn.decls [m.modname, x.innerMod]) ++
    m.substructs.flatMap fun s => s.methods.flatMap fun x => x.fn.decls [s.modname, x.innerMod]

end Mockall.Derive
