import Verif.Derive.Struct

/-! # What is mocked: from traits, `impl`s and `mock!` to `MockableStruct` (mockable_struct.rs, automock.rs)

`M` stands for mockall_derive/src/mockable_struct.rs. -/

namespace Mockall.Derive

/-! ## `add_lifetime_parameters` (M:24-112) -/

/-- M:29-31. -/
def Bound.isLt : Bound → Bool
  | .lt _ => true
  | _ => false

/-- The name of the argument, M:34-56. -/
def argIdent : Pat → Gen Ident
  | .wild => throw "Mocked methods must have named arguments"
  | .ident r _ i sub =>
    if r then throw "Mockall does not support by-reference argument bindings"
    else if sub then throw "Mockall does not support subpattern bindings"
    else return i
  | .other _ => throw "Unsupported argument type"

/-- `add_to_trait_object`, M:26-66: the bounds, and the parameters added to the generics.  `Lifetime::new`
panics for a raw identifier, which the syntax tree does not have. -/
def addToTraitObject (var : Pat) (b : List Bound) : Gen (List Bound × List GParam) :=
  if b.any Bound.isLt then return (b, [])
  else do
    let i ← argIdent var
    return (b ++ [.lt ("__mockall_" ++ i)], [.lt { lt := "__mockall_" ++ i }])

mutual
/-- `add_to_type`, M:68-105: the type, and the parameters added to the generics. -/
def addToType (var : Pat) : Ty → Gen (Ty × List GParam)
  | .array e l => do
    let (e, p) ← addToType var e
    return (.array e l, p)
  | .bareFn l i o => return (.bareFn l i o, [])
  | .implTrait b => return (.implTrait b, [])
  | .path l s => return (.path l s, [])
  | .qpath q p l s => return (.qpath q p l s, [])
  | .ptr m e => return (.ptr m e, [])
  | .ref l m (.paren (.traitObject b)) => do
    let (b, p) ← addToTraitObject var b
    return (.ref l m (.paren (.traitObject b)), p)
  | .ref l m (.traitObject b) => do
    let (b, p) ← addToTraitObject var b
    return (.ref l m (.paren (.traitObject b)), p)
  | .ref l m e => do
    let (e, p) ← addToType var e
    return (.ref l m e, p)
  | .slice e => do
    let (e, p) ← addToType var e
    return (.slice e, p)
  | .tuple l => do
    let (l, p) ← addToTypes var l
    return (.tuple l, p)
  | .group _ => throw "unsupported type in this position"
  | .infer => throw "unsupported type in this position"
  | .mac _ => throw "unsupported type in this position"
  | .never => throw "unsupported type in this position"
  | .paren _ => throw "unsupported type in this position"
  | .traitObject _ => throw "unsupported type in this position"
  | .verbatim _ => throw "unsupported type in this position"
/-- The loop of M:99-101. -/
def addToTypes (var : Pat) : List Ty → Gen (List Ty × List GParam)
  | [] => return ([], [])
  | t :: l => do
    let (t, p) ← addToType var t
    let (l, q) ← addToTypes var l
    return (t :: l, p ++ q)
end

/-- The loop of M:107-111. -/
def addToArgs : List FnArg → Gen (List FnArg × List GParam)
  | [] => return ([], [])
  | .receiver r m c t :: l => do
    let (l, p) ← addToArgs l
    return (.receiver r m c t :: l, p)
  | .typed a v t :: l => do
    let (t, p) ← addToType v t
    let (l, q) ← addToArgs l
    return (.typed a v t :: l, p ++ q)

/-- `add_lifetime_parameters`, M:25-112. -/
def addLifetimeParameters (s : Sig) : Gen Sig := do
  let (inputs, new) ← addToArgs s.inputs
  return { s with
    inputs
    generics := { s.generics with
      angle := if new = [] then s.generics.angle else true
      params := s.generics.params ++ new } }

/-! ## Methods -/

/-- The test of `sanity_check_sig`, M:242-255, on one argument. -/
def sanityCheckArg : FnArg → Gen Unit
  | .typed _ _ (.implTrait _) => throw "Mockall does not support \"impl trait\" in argument position."
  | _ => return ()

/-- `sanity_check_sig`, M:242-255. -/
def sanityCheckSig (s : Sig) : Gen Unit := s.inputs.forM sanityCheckArg

/-- M:165-168 and M:184-187. -/
def mockableOutput (name : Ident) (g : Generics) : Ret → Gen Ret
  | .unit => return .unit
  | .ty t => do
    let t ← deselfify name g t
    let t ← deanonymize t
    return .ty t

/-- `mockable_method`, M:158-170. -/
def mockableMethod (name : Ident) (g : Generics) (f : ImplFn) : Gen ImplFn := do
  let inputs ← demutify f.sig.inputs
  let inputs ← inputs.mapM (deselfifyArg name g)
  let sig ← addLifetimeParameters { f.sig with inputs }
  let output := deimplify sig.output
  let generics := dewhereselfify sig.generics
  let output ← mockableOutput name g output
  let sig := { sig with output, generics }
  sanityCheckSig sig
  return { f with sig }

/-- `syn::TraitItemFn`; `hasBody` says whether it is provided. -/
structure TraitFn where
  attrs : List Attr := []
  qual : Qual := {}
  sig : Sig
  hasBody : Bool := false

/-- `syn::TraitItemConst`, without generics. -/
structure TraitConst where
  attrs : List Attr := []
  id : Ident
  ty : String
  dflt : Option String := none

/-- `syn::TraitItemType`, without generics. -/
structure TraitType where
  attrs : List Attr := []
  id : Ident
  bounds : List Bound := []
  dflt : Option Ty := none

/-- `syn::TraitItem`. -/
inductive TraitItem
  | const (c : TraitConst)
  | fn (f : TraitFn)
  | type (t : TraitType)
  | other (tokens : String)

/-- `syn::ItemTrait`, without `auto` and supertraits, which are not looked at. -/
structure ItemTrait where
  attrs : List Attr := []
  vis : Vis := .inherited
  isUnsafe : Bool := false
  ident : Ident
  generics : Generics := {}
  items : List TraitItem

/-- `mockable_trait_method`, M:173-188. -/
def mockableTraitMethod (name : Ident) (g : Generics) (f : TraitFn) : Gen TraitFn := do
  let inputs ← demutify f.sig.inputs
  let inputs ← inputs.mapM (deselfifyArg name g)
  let sig ← addLifetimeParameters { f.sig with inputs }
  let output := deimplify sig.output
  let generics := dewhereselfify sig.generics
  let output ← mockableOutput name g output
  let sig := { sig with output, generics }
  sanityCheckSig sig
  return { f with sig }

/-- `tif2iif`, M:281-295. -/
def tif2iif (f : TraitFn) (vis : Vis) : ImplFn := { attrs := f.attrs, vis, qual := f.qual, sig := f.sig }

/-- `tic2iic`, M:258-278. -/
def tic2iic (c : TraitConst) (vis : Vis) : Gen ConstItem :=
  match c.dflt with
  | none => throw "Mocked associated consts must have a default implementation"
  | some v => return { attrs := c.attrs, vis, id := c.id, ty := c.ty, value := v }

/-- `tit2iit`, M:298-316; its visibility is always inherited. -/
def tit2iit (t : TraitType) : Gen TypeItem :=
  match t.dflt with
  | none => throw "associated types in mock! must be fully specified"
  | some ty => return { attrs := t.attrs, id := t.id, ty }

/-- The closure of M:195-212. -/
def mockableTraitItem (name : Ident) (g : Generics) : TraitItem → Gen ImplItem
  | .fn f => do
    let f ← mockableTraitMethod name g f
    return .fn (tif2iif f .inherited)
  | .const c => do
    let c ← tic2iic c .inherited
    return .const c
  | .type t => do
    let t ← tit2iit t
    return .type t
  | .other _ => throw "Unsupported in this context"

/-- `mockable_trait`, M:191-240. -/
def mockableTrait (t : ItemTrait) (name : Ident) (g : Generics) : Gen ItemImpl := do
  let items ← t.items.mapM (mockableTraitItem name g)
  return {
    attrs := t.attrs
    isUnsafe := t.isUnsafe
    generics := g
    trait := some { segs := [.mk t.ident (typeArgs t.generics)] }
    selfTy := .path false [.mk name (typeArgs g)]
    items }

/-! ## `#[automock]` on a trait -/

/-- automock.rs:51-55 and 235-239: the types of the arguments. -/
def substArg (σ : Subst) (trait : Ident) : FnArg → Gen FnArg
  | .typed a p t => do
    let t ← substTy σ trait t
    return .typed a p t
  | a => return a

/-- automock.rs:50-58 and 234-242. -/
def substSig (σ : Subst) (trait : Ident) (s : Sig) : Gen Sig := do
  let inputs ← s.inputs.mapM (substArg σ trait)
  let output ← substRet σ trait s.output
  return { s with inputs, output }

/-- The loop of `substitute_trait`, automock.rs:219-248. -/
def substTraitItem (σ : Subst) (trait : Ident) : TraitItem → Gen TraitItem
  | .type t =>
    match σ.lookup t.id with
    | some ty => return .type { t with dflt := some ty, bounds := [] }
    | none => throw "Default value not given for associated type"
  | .fn f => do
    let sig ← substSig σ trait f.sig
    return .fn { f with sig }
  | i => return i

/-- `substitute_trait`, automock.rs:217-250. -/
def substTrait (σ : Subst) (t : ItemTrait) : Gen ItemTrait := do
  let items ← t.items.mapM (substTraitItem σ t.ident)
  return { t with items }

/-- `derive_debug`, M:115-123. -/
def deriveDebug : Attr := .plain [] "derive" ["Debug"]

/-- `gen_mock_ident`, D:1039-1041. -/
def genMockIdent (i : Ident) : Ident := "Mock" ++ i

/-- `MockableStruct::from((Attrs, ItemTrait))`, M:364-391. -/
def mockableFromTrait (σ : Subst) (t : ItemTrait) : Gen MockableStruct := do
  let t ← substTrait σ t
  let attrs := ({ doc := true, asyncTrait := true, mustUse := false } : AttrFormatter).format t.attrs
  let name := genMockIdent t.ident
  let impl ← mockableTrait t name t.generics
  return { attrs := attrs ++ [deriveDebug], generics := t.generics, name, vis := t.vis, impls := [impl] }

/-! ## `#[automock]` on an `impl` -/

/-- `find_ident_from_path`, D:670-678. -/
def findIdentFromPath : List Seg → Gen Ident
  | [s] => return s.id
  | _ => throw "mockall_derive only supports structs defined in the current module"

/-- `mock_ident_in_type`, M:126-142. -/
def mockIdentInType : Ty → Gen Ty
  | .path l [.mk i a] => return .path l [.mk (genMockIdent i) a]
  | .qpath q p l [.mk i a] => return .qpath q p l [.mk (genMockIdent i) a]
  | .path _ _ => throw "mockall_derive only supports structs defined in the current module"
  | .qpath _ _ _ _ => throw "mockall_derive only supports structs defined in the current module"
  | _ => throw "mockall_derive only supports mocking traits and structs"

/-- M:149-153. -/
def mockableImplItem (name : Ident) (g : Generics) : ImplItem → Gen ImplItem
  | .fn f => do
    let f ← mockableMethod name g f
    return .fn f
  | i => return i

/-- `mockable_item_impl`, M:145-155. -/
def mockableItemImpl (i : ItemImpl) (name : Ident) (g : Generics) : Gen ItemImpl := do
  let selfTy ← mockIdentInType i.selfTy
  let items ← i.items.mapM (mockableImplItem name g)
  return { i with selfTy, items }

/-- automock.rs:48-60. -/
def substImplItem (σ : Subst) (trait : Ident) : ImplItem → Gen ImplItem
  | .fn f => do
    let sig ← substSig σ trait f.sig
    return .fn { f with sig }
  | i => return i

/-- `substitute_item_impl`, automock.rs:44-61. -/
def substItemImpl (σ : Subst) (i : ItemImpl) : Gen ItemImpl :=
  match i.trait with
  | none => throw "Should only be called for trait item impls"
  | some p => do
    let trait ← findIdentFromPath p.segs
    let items ← i.items.mapM (substImplItem σ trait)
    return { i with items }

/-- The loop of M:433-444: the types of the `impl`; `insert` overwrites. -/
def implTypes : List ImplItem → Subst → Gen Subst
  | [], σ => return σ
  | .const _ :: l, σ => implTypes l σ
  | .fn _ :: l, σ => implTypes l σ
  | .type t :: l, σ => implTypes l ((t.id, t.ty) :: σ)
  | .other _ :: _, _ => throw "Unsupported by automock"

/-- The loop of M:448-459: constants and methods. -/
def inherentItems (name : Ident) (g : Generics) : List ImplItem → Gen (List ConstItem × List ImplFn)
  | [] => return ([], [])
  | .fn f :: l => do
    let f ← mockableMethod name g f
    let (cs, fs) ← inherentItems name g l
    return (cs, f :: fs)
  | .const c :: l => do
    let (cs, fs) ← inherentItems name g l
    return (c :: cs, fs)
  | .type _ :: _ => throw "Unsupported by Mockall in this context"
  | .other _ :: _ => throw "Unsupported by Mockall in this context"

/-- The number of arguments in angle brackets, M:399-400. -/
def Args.count : Args → Option Nat
  | .angle l => Option.some l.length
  | _ => Option.none

/-- The name of the mock, M:395-416. -/
def implMockName (g : Generics) : Ty → Gen Ident
  | .path _ segs => go segs
  | .qpath _ _ _ segs => go segs
  | _ => throw "mockall_derive only supports mocking traits and structs"
where
  /-- M:397-409. -/
  go (segs : List Seg) : Gen Ident := do
    let n ← findIdentFromPath segs
    match segs.getLast?.bind fun s => s.args.count with
    | some k =>
      if g.params.length ≠ k then throw "automock does not currently support structs with elided lifetimes"
      else return genMockIdent n
    | none => return genMockIdent n

/-- `MockableStruct::from(ItemImpl)`, M:393-471. -/
def mockableFromImpl (i : ItemImpl) : Gen MockableStruct := do
  let name ← implMockName i.generics i.selfTy
  let attrs := i.attrs ++ [deriveDebug]
  match i.trait with
  | some _ =>
    if i.bang then throw "Unsupported by automock"
    else do
      let σ ← implTypes i.items []
      let i' ← substItemImpl σ i
      let impl ← mockableItemImpl i' name i.generics
      return { attrs, generics := i.generics, name, vis := .pub, impls := [impl] }
  | none => do
    let (consts, methods) ← inherentItems name i.generics i.items
    return { attrs, consts, generics := i.generics, methods, name, vis := .pub }

/-! ## `mock!` -/

/-- The items in the braces of `mock!`: methods without a body (`TraitItemVFn`), constants, others. -/
inductive BangItem
  | method (f : ImplFn)
  | const (c : ConstItem)
  | other (tokens : String)

/-- What follows the braces. -/
inductive BangImpl
  | impl (i : ItemImpl)
  | other (tokens : String)

/-- The argument of `mock!`. -/
structure Bang where
  attrs : List Attr := []
  vis : Vis := .inherited
  ident : Ident
  generics : Generics := {}
  items : List BangItem := []
  impls : List BangImpl := []

/-- The loop of M:486-500. -/
def bangItems (name : Ident) (g : Generics) : List BangItem → Gen (List ConstItem × List ImplFn)
  | [] => return ([], [])
  | .method f :: l => do
    let f ← mockableMethod name g f
    let (cs, fs) ← bangItems name g l
    return (cs, f :: fs)
  | .const c :: l => do
    let (cs, fs) ← bangItems name g l
    return (c :: cs, fs)
  | .other _ :: _ => throw "Unsupported in this context"

/-- The loop of M:503-520.  A method without a body becomes one with an empty body (M:507-513); we leave out
bodies. -/
def bangImpl (name : Ident) (g : Generics) : BangImpl → Gen ItemImpl
  | .impl i => mockableItemImpl i name g
  | .other _ => throw "Unsupported in this context"

/-- `MockableStruct::parse`, M:473-534. -/
def mockableFromBang (b : Bang) : Gen MockableStruct := do
  let name := genMockIdent b.ident
  let (consts, methods) ← bangItems name b.generics b.items
  let impls ← b.impls.mapM (bangImpl name b.generics)
  return { attrs := b.attrs, consts, generics := b.generics, methods, name, vis := b.vis, impls }

/-! ## The macros -/

/-- `#[automock]` on a trait, D:1353-1369, without the trait itself, which is copied. -/
def automockTrait (hash : List Args → Nat) (σ : Subst) (t : ItemTrait) : Gen (List Item) := do
  expandStruct hash (← mockableFromTrait σ t)

/-- `#[automock]` on an `impl`, D:1353-1369, without the `impl` itself, which is copied. -/
def automockImpl (hash : List Args → Nat) (i : ItemImpl) : Gen (List Item) := do
  expandStruct hash (← mockableFromImpl i)

/-- `mock!`, D:1306-1315. -/
def mockBang (hash : List Args → Nat) (b : Bang) : Gen (List Item) := do
  expandStruct hash (← mockableFromBang b)

end Mockall.Derive
