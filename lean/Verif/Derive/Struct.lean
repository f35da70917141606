import Verif.Derive.Build
import Verif.Derive.Attrs

/-! # The struct generated for a mock (mock_item_struct.rs, mock_trait.rs)

`S` stands for mockall_derive/src/mock_item_struct.rs. -/

namespace Mockall.Derive

/-! ## What is mocked -/

/-- What `Sig` leaves out of `syn::Signature`.  `abi` is `none` without `extern`, `some none` for `extern`
alone and `some (some s)` for `extern "s"`. -/
structure Qual where
  isConst : Bool := false
  isAsync : Bool := false
  isUnsafe : Bool := false
  abi : Option (Option String) := none
  deriving DecidableEq

/-- `syn::ImplItemFn` without its body. -/
structure ImplFn where
  attrs : List Attr := []
  vis : Vis := .inherited
  qual : Qual := {}
  sig : Sig

/-- `syn::ImplItemConst`, without generics; type and value are only copied. -/
structure ConstItem where
  attrs : List Attr := []
  vis : Vis := .inherited
  id : Ident
  ty : String
  value : String
  deriving DecidableEq

/-- `syn::ImplItemType`, without generics. -/
structure TypeItem where
  attrs : List Attr := []
  id : Ident
  ty : Ty
  deriving DecidableEq

/-- `syn::ImplItem`; constants and types are only copied. -/
inductive ImplItem
  | const (c : ConstItem)
  | fn (f : ImplFn)
  | type (t : TypeItem)
  | other (tokens : String)

/-- `syn::Path`. -/
structure TraitPath where
  lead : Bool := false
  segs : List Seg
  deriving DecidableEq

/-- `syn::ItemImpl`; `bang` says whether there is a `!` before the trait. -/
structure ItemImpl where
  attrs : List Attr := []
  isUnsafe : Bool := false
  generics : Generics := {}
  bang : Bool := false
  trait : Option TraitPath
  selfTy : Ty
  items : List ImplItem

/-- `MockableStruct`, mockable_struct.rs:334-343. -/
structure MockableStruct where
  attrs : List Attr := []
  consts : List ConstItem := []
  generics : Generics := {}
  methods : List ImplFn := []
  name : Ident
  vis : Vis := .inherited
  impls : List ItemImpl := []

/-! ## What is built from it -/

/-- A `MockFunction` with the fields of it that `MockFn` does not have. -/
structure Meth where
  attrs : List Attr
  trait : Option Ident
  fn : MockFn
  qual : Qual

/-- `MockFunction::name`, F:819-821. -/
def Meth.name (m : Meth) : Ident := m.fn.sig.ident

/-- `MockFunction::is_static`, F:815-817. -/
def Meth.isStatic (m : Meth) : Bool := m.fn.isStatic

/-- `MockFunction::inner_mod_ident`, F:811-813. -/
def Meth.innerMod (m : Meth) : Ident := "__" ++ m.name

/-- `MockTrait`, mock_trait.rs:20-34. -/
structure MockTrait where
  attrs : List Attr
  consts : List ConstItem
  generics : Generics
  methods : List Meth
  ssName : Ident
  path : TraitPath
  selfPath : Seg
  types : List TypeItem
  isUnsafe : Bool

/-- `PathArguments::is_empty`. -/
def Args.isEmpty : Args → Bool
  | .none => true
  | .angle l => l.isEmpty
  | .paren _ _ => false

/-- `join_path_segments`, mock_trait.rs:178-193; the first segment is not empty. -/
def joinSegs (p : TraitPath) : String := "__".intercalate (p.segs.map Seg.id)

/-- The arguments that `hash_path_arguments` hashes, mock_trait.rs:195-208. -/
def pathArgs (p : TraitPath) : List Args := (p.segs.map Seg.args).filter (!·.isEmpty)

/-- `ss_name_priv`, mock_trait.rs:37-47.  `hash` stands for `DefaultHasher`; nothing is known about it. -/
def ssNameOf (hash : List Args → Nat) (p : TraitPath) : Ident :=
  if pathArgs p = [] then joinSegs p else joinSegs p ++ "_" ++ toString (hash (pathArgs p))

/-- The call of `Builder` in S:216-222 and mock_trait.rs:91-98. -/
def methOf (generics : Generics) (trait : Option Ident) (vis : Vis) (attrs : List Attr) (qual : Qual)
    (sig : Sig) : Gen Meth := do
  let f ← build { sig, vis, levels := 2, callLevels := some 0, structGenerics := some generics,
                  concretize := attrs.any isConcretize }
  return ⟨attrs, trait, f, qual⟩

/-- The loop of mock_trait.rs:85-109. -/
def traitMethods (generics : Generics) (ss : Ident) (vis : Vis) : List ImplItem → Gen (List Meth)
  | [] => return []
  | .fn f :: l => do
    let m ← methOf generics (some ss) vis f.attrs f.qual f.sig
    let r ← traitMethods generics ss vis l
    return m :: r
  | .other _ :: _ => throw "This impl item is not yet supported by MockAll"
  | _ :: l => traitMethods generics ss vis l

/-- The constants of mock_trait.rs:87-89. -/
def traitConsts (l : List ImplItem) : List ConstItem := l.filterMap fun | .const c => some c | _ => none

/-- The types of mock_trait.rs:101-103. -/
def traitTypes (l : List ImplItem) : List TypeItem := l.filterMap fun | .type t => some t | _ => none

/-- The last segment of a `Type::Path`, mock_trait.rs:76-83. -/
def selfPathOf : Ty → Gen Seg
  | .path _ segs => lastOf segs
  | .qpath _ _ _ segs => lastOf segs
  | _ => throw "mockall_derive only supports mocking traits and structs"
where
  /-- `segments.pop().unwrap()`. -/
  lastOf (segs : List Seg) : Gen Seg :=
    match segs.getLast? with
    | some s => return s
    | none => throw "called `Option::unwrap()` on a `None` value"

/-- `MockTrait::new`, mock_trait.rs:60-121; a `!` before the trait is not looked at. -/
def mockTrait (hash : List Args → Nat) (generics : Generics) (vis : Vis) (i : ItemImpl) : Gen MockTrait :=
  match i.trait with
  | none => throw "impl block must implement a trait"
  | some p => do
    let selfPath ← selfPathOf i.selfTy
    let methods ← traitMethods generics (ssNameOf hash p) vis i.items
    return {
      attrs := i.attrs
      consts := traitConsts i.items
      generics := i.generics
      methods
      ssName := ssNameOf hash p
      path := p
      selfPath
      types := traitTypes i.items
      isUnsafe := i.isUnsafe }

/-- `MockItemStruct`, S:129-145. -/
structure MockItemStruct where
  attrs : List Attr
  consts : List ConstItem
  generics : Generics
  autoDebug : Bool
  hasNew : Bool
  methods : List Meth
  modname : Ident
  name : Ident
  traits : List MockTrait
  vis : Vis

/-- `attr.path().is_ident("derive")` and `Debug` among its arguments, mockable_struct.rs:347-361.  (The
arguments are taken apart at commas, which `Attr` leaves out; a path like `fmt::Debug` is several tokens there,
so we only look at attributes whose arguments are single names.) -/
def derivesDebug (l : List Attr) : Bool :=
  l.any fun | .plain [] last args => last = "derive" && args.contains "Debug" | _ => false

/-- `MockItemStruct::from`, S:195-242. -/
def mockItemStruct (hash : List Args → Nat) (m : MockableStruct) : Gen MockItemStruct := do
  let methods ← m.methods.mapM fun f => methOf m.generics none f.vis f.attrs f.qual f.sig
  let traits ← m.impls.mapM (mockTrait hash m.generics m.vis)
  return {
    attrs := m.attrs
    consts := m.consts
    generics := m.generics
    autoDebug := derivesDebug m.attrs
    hasNew := m.methods.any (·.sig.ident = "new") || m.impls.any fun i =>
      i.items.any fun | .fn f => f.sig.ident = "new" | _ => false
    methods
    modname := "__mock_" ++ m.name
    name := m.name
    traits
    vis := m.vis }

/-! ## The code generated -/

/-- The type of a field, without generic arguments: `modname::inner::Expectations` (or
`GenericExpectations`), the name of a struct, or `PhantomData`. -/
inductive FieldTy
  | store (module : List Ident) (generic : Bool)
  | sub (name : Ident)
  /-- `PhantomData<&'a ()>` or `PhantomData<T>`, for a parameter of the struct -/
  | phantom (p : GParam)
  deriving DecidableEq

/-- A field of a struct. -/
structure Field where
  attrs : List Attr
  name : Ident
  ty : FieldTy
  deriving DecidableEq

/-- A statement or another piece of code that has attributes. -/
structure WithAttrs (α : Type) where
  attrs : List Attr
  val : α
  deriving DecidableEq

/-- What a generated function does.  `self.a.b` is the list `[a, b]`. -/
inductive Body
  /-- `self.place.call(..)`. -/
  | call (place : List Ident)
  /-- `module::get_expectations().lock().unwrap().call(..)`. -/
  | callStatic (module : List Ident)
  /-- `self.place.expect()`, of type `&mut module::Expectation`. -/
  | expect (place module : List Ident)
  /-- `module::Context::default()`. -/
  | context (module : List Ident)
  /-- The statements `self.place.checkpoint();`. -/
  | checkpoint (stmts : List (WithAttrs (List Ident)))
  /-- `Self::default()`. -/
  | new
  deriving DecidableEq

/-- What comes before the name of a function, and its signature.  Those with a fixed signature, `expect_x`,
`x_context`, `checkpoint` and `new`, have `none`. -/
structure FnHead where
  attrs : List Attr := []
  noMangle : Bool := false
  vis : Vis := .inherited
  qual : Qual := {}
  sig : Option Sig := none
  deriving DecidableEq

/-- A generated function. -/
structure FnItem where
  head : FnHead
  name : Ident
  body : Body
  deriving DecidableEq

/-- The attributes of a function. -/
def FnItem.attrs (f : FnItem) : List Attr := f.head.attrs

/-- What comes before the name of a struct, and its generics. -/
structure StructHead where
  attrs : List Attr
  vis : Vis
  generics : Generics
  deriving DecidableEq

/-- An `impl` without the trait, the name of the type and the functions: `selfArgs` are the arguments of
the type. -/
structure ImplHead where
  attrs : List Attr := []
  isUnsafe : Bool := false
  generics : Generics
  selfArgs : Args
  consts : List ConstItem := []
  types : List TypeItem := []
  deriving DecidableEq

/-- A generated item. -/
inductive Item
  /-- A module and the modules in it. -/
  | mod (attrs : List Attr) (name : Ident) (inner : List (WithAttrs Ident))
  | struct (head : StructHead) (name : Ident) (fields : List Field)
  /-- `impl Default`: the fields that `default` sets. -/
  | dflt (attrs : List Attr) (name : Ident) (inits : List (WithAttrs Ident))
  /-- `impl name` or `impl trait for name`. -/
  | impl (head : ImplHead) (name : Ident) (trait : Option TraitPath) (fns : List FnItem)
  /-- `impl Debug`. -/
  | debug (name : Ident)

/-- The attributes of most of the code generated for a method: `AttrFormatter` with `doc(false)`. -/
def noDoc (l : List Attr) : List Attr := ({ doc := false } : AttrFormatter).format l

/-- `async_trait(false).doc(false)`; with `must_use(false)`, S:400-404, it is the same. -/
def noDocAsync (l : List Attr) : List Attr :=
  ({ asyncTrait := false, doc := false } : AttrFormatter).format l

/-- `self.#substruct_obj #name`, F:519-524 and F:688-693. -/
def Meth.place (m : Meth) : List Ident :=
  match m.trait with
  | some t => [t ++ "_expectations", m.name]
  | none => [m.name]

/-- The attribute `#[no_mangle]` of `MockFunction::call`, F:505-518. -/
def Qual.noMangle (q : Qual) : Bool :=
  match q.abi with
  | some (some s) => s ≠ "Rust"
  | some none => true
  | none => false

/-- `MockFunction::call`, F:474-578, without `#[allow(dead_code)]`. -/
def Meth.call (m : Meth) (modname : Ident) : FnItem where
  head := {
    attrs := ({ mustUse := true } : AttrFormatter).format m.attrs
    noMangle := m.qual.noMangle
    vis := if m.trait.isSome then .inherited else m.fn.callVis
    qual := m.qual
    sig := some m.fn.sig }
  name := m.name
  body := if m.isStatic then .callStatic [modname, m.innerMod] else .call m.place

/-- `MockFunction::context_fn`, F:609-629. -/
def Meth.contextFn (m : Meth) (modname : Ident) : FnItem where
  head := { attrs := noDoc m.attrs, vis := m.fn.callVis }
  name := m.name ++ "_context"
  body := .context [modname, m.innerMod]

/-- `MockFunction::expect`, F:655-706, with `expectation_obj`, F:709-733. -/
def Meth.expect (m : Meth) (modname : Ident) : FnItem where
  head := { attrs := noDoc m.attrs, vis := m.fn.callVis }
  name := "expect_" ++ m.name
  body := .expect m.place [modname, m.innerMod]

/-- `MockFunction::checkpoint`, F:581-601, of a method. -/
def Meth.checkpoint (m : Meth) : WithAttrs (List Ident) := ⟨noDoc m.attrs, [m.name]⟩

/-- `MockFunction::field_definition`, F:746-763. -/
def Meth.field (m : Meth) (modname : Ident) : Field where
  attrs := noDoc m.attrs
  name := m.name
  ty := .store [modname, m.innerMod] m.fn.isMethodGeneric

/-- The attributes and the name of `MockFunction::priv_module`, F:824-889. -/
def Meth.privMod (m : Meth) : WithAttrs Ident := ⟨noDoc m.attrs, m.innerMod⟩

/-- `Methods::default_inits`, S:103-113, for one method. -/
def Meth.init (m : Meth) : WithAttrs Ident := ⟨noDoc m.attrs, m.name⟩

/-- `Methods::checkpoints`, S:95-100. -/
def checkpoints (l : List Meth) : List (WithAttrs (List Ident)) :=
  (l.filter (!·.isStatic)).map Meth.checkpoint

/-- `Methods::default_inits`, S:103-113. -/
def defaultInits (l : List Meth) : List (WithAttrs Ident) := (l.filter (!·.isStatic)).map Meth.init

/-- `Methods::field_definitions`, S:115-120. -/
def fieldDefinitions (l : List Meth) (modname : Ident) : List Field :=
  (l.filter (!·.isStatic)).map (·.field modname)

/-- `phantom_fields`, S:31-61, from the `i`th parameter on. -/
def phantomFields : Nat → List GParam → Gen (List Field)
  | _, [] => return []
  | i, .lt p :: l =>
    if p.bounds = [] then do
      let r ← phantomFields (i + 1) l
      return ⟨[], "_t" ++ toString i, .phantom (.lt p)⟩ :: r
    else throw "#automock does not yet support lifetime bounds on structs"
  | i, .ty p :: l => do
    let r ← phantomFields (i + 1) l
    return ⟨[], "_t" ++ toString i, .phantom (.ty p)⟩ :: r
  | _, .const _ _ :: _ => throw "#automock does not yet support generic constants"

/-- `phantom_default_inits`, S:20-28, from the `i`th parameter on. -/
def phantomInits : Nat → List GParam → List (WithAttrs Ident)
  | _, [] => []
  | i, _ :: l => ⟨[], "_t" ++ toString i⟩ :: phantomInits (i + 1) l

/-- `unique_trait_iter`, S:66-83; `hs` are the keys seen. -/
def uniqueTraits (hs : List (TraitPath × List Attr)) : List MockTrait → List MockTrait
  | [] => []
  | t :: l =>
    let key := (t.path, noDocAsync t.attrs)
    if key ∈ hs then uniqueTraits hs l else t :: uniqueTraits (key :: hs) l

/-- `MockItemTraitImpl`, S:367-377. -/
structure SubStruct where
  attrs : List Attr
  methods : List Meth
  modname : Ident
  name : Ident
  fieldname : Ident

/-- S:269-281. -/
def MockItemStruct.substructs (m : MockItemStruct) : List SubStruct :=
  (uniqueTraits [] m.traits).map fun t => {
    attrs := t.attrs
    methods := t.methods
    modname := m.modname ++ "_" ++ t.ssName
    name := m.name ++ "_" ++ t.ssName
    fieldname := t.ssName ++ "_expectations" }

/-- `all_static`, S:90-93 and S:381-383. -/
def SubStruct.allStatic (s : SubStruct) : Bool := s.methods.all Meth.isStatic

/-- `TypeGenerics` of a list of parameters: lifetimes are printed first. -/
def typeArgs (g : Generics) : Args :=
  if g.params = [] then .none
  else .angle (g.params.filterMap (fun | .lt p => some (.lt p.lt) | _ => none) ++
    g.params.filterMap fun | .ty p => some (.ty (.name p.id)) | .const i _ => some (.ty (.name i)) | _ => none)

/-- The signature of `checkpoint` and `new` is fixed, they are `pub`. -/
def pubFn : FnHead := { vis := .pub }

/-- `MockItemTraitImpl::to_tokens`, S:394-452. -/
def SubStruct.items (generics : Generics) (s : SubStruct) : Gen (List Item) := do
  let phantoms ← phantomFields 0 generics.params
  return [
    .mod (noDocAsync s.attrs) s.modname (s.methods.map Meth.privMod),
    .struct ⟨noDocAsync s.attrs, .inherited, generics⟩ s.name (fieldDefinitions s.methods s.modname ++ phantoms),
    .dflt (noDocAsync s.attrs) s.name (defaultInits s.methods ++ phantomInits 0 generics.params),
    .impl { attrs := noDocAsync s.attrs, generics, selfArgs := typeArgs generics } s.name none
      [⟨pubFn, "checkpoint", .checkpoint (checkpoints s.methods)⟩]]

/-- `MockTrait::trait_impl`, mock_trait.rs:130-175. -/
def MockTrait.implItems (t : MockTrait) (modname : Ident) : List Item := [
  .impl { attrs := ({} : AttrFormatter).format t.attrs, isUnsafe := t.isUnsafe, generics := t.generics
          selfArgs := t.selfPath.args, consts := t.consts, types := t.types } t.selfPath.id (some t.path)
    (t.methods.map (·.call modname)),
  .impl { attrs := noDocAsync t.attrs, generics := t.generics, selfArgs := t.selfPath.args } t.selfPath.id none
    ((t.methods.filter (!·.isStatic)).map (·.expect modname) ++
      (t.methods.filter (·.isStatic)).map (·.contextFn modname))]

/-- `new_method`, S:167-184. -/
def MockItemStruct.newMethod (m : MockItemStruct) : List FnItem :=
  if m.hasNew then [] else [⟨pubFn, "new", .new⟩]

/-- `debug_impl`, S:148-165. -/
def MockItemStruct.debugImpl (m : MockItemStruct) : List Item := if m.autoDebug then [.debug m.name] else []

/-- `MockItemStruct::to_tokens`, S:244-365. -/
def MockItemStruct.items (m : MockItemStruct) : Gen (List Item) := do
  let live := m.substructs.filter (!·.allStatic)
  let phantoms ← phantomFields 0 m.generics.params
  let subs ← m.substructs.mapM (SubStruct.items m.generics)
  let attrs := ({ asyncTrait := false, mustUse := true } : AttrFormatter).format m.attrs
  return [
    .mod [] m.modname (m.methods.map Meth.privMod),
    .struct ⟨attrs, m.vis, m.generics⟩ m.name
      (live.map (fun s => ⟨noDocAsync s.attrs, s.fieldname, .sub s.name⟩) ++
        fieldDefinitions m.methods m.modname ++ phantoms)] ++
    m.debugImpl ++
    [.dflt [] m.name
      (live.map (fun s => ⟨noDocAsync s.attrs, s.fieldname⟩) ++ defaultInits m.methods ++
        phantomInits 0 m.generics.params)] ++
    subs.flatten ++
    [.impl { generics := m.generics, selfArgs := typeArgs m.generics, consts := m.consts } m.name none
      (m.methods.map (·.call m.modname) ++
        (m.methods.filter (·.isStatic)).map (·.contextFn m.modname) ++
        (m.methods.filter (!·.isStatic)).map (·.expect m.modname) ++
        [⟨pubFn, "checkpoint", .checkpoint
          (live.map (fun s => ⟨noDocAsync s.attrs, [s.fieldname]⟩) ++ checkpoints m.methods)⟩] ++
        m.newMethod)] ++
    m.traits.flatMap fun t => t.implItems (m.modname ++ "_" ++ t.ssName)

/-- From the definition of the mock to the code. -/
def expandStruct (hash : List Args → Nat) (m : MockableStruct) : Gen (List Item) := do
  (← mockItemStruct hash m).items

end Mockall.Derive
