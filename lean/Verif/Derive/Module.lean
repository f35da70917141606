import Verif.Derive.Struct

/-! # Mocked modules (mockable_item.rs, mock_item.rs) -/

namespace Mockall.Derive

/-! ## What is mocked -/

/-- `syn::ItemFn` without its body, and `syn::ForeignItemFn`. -/
structure ModFn where
  attrs : List Attr := []
  vis : Vis := .inherited
  qual : Qual := {}
  sig : Sig

/-- `syn::ForeignItem`; functions are the only ones that are told apart. -/
inductive ForeignItem
  | fn (f : ModFn)
  | other (tokens : String)

/-- The sorts of items that are copied: `static`, `const`, `type`, trait aliases and `use`. -/
inductive CopyKind
  | static
  | const
  | type
  | traitAlias
  | use
  deriving DecidableEq

/-- `syn::Item`.  Items that are copied or not looked at are their tokens (attributes included). -/
inductive ModItem
  | externCrate (tokens : String)
  | impl (tokens : String)
  | copied (k : CopyKind) (tokens : String)
  | fn (f : ModFn)
  | foreignMod (attrs : List Attr) (abi : Option String) (items : List ForeignItem)
  /-- `mod`, `struct`, `enum`, `union` and `trait`. -/
  | nested (tokens : String)
  /-- Everything else: macros and tokens that `syn` does not know. -/
  | other (tokens : String)

/-- `syn::ItemMod`; `content` is `none` for `mod m;`. -/
structure ItemMod where
  attrs : List Attr := []
  vis : Vis := .inherited
  ident : Ident
  content : Option (List ModItem)

/-- `MockableModule`, mockable_item.rs:49-56.  Its `attrs` are always empty (mockable_item.rs:74): those of
the module are not looked at. -/
structure MockableModule where
  vis : Vis
  mockIdent : Ident
  origIdent : Option Ident
  content : List ModItem

/-- `mockable_fn`, mockable_item.rs:5-9. -/
def mockableFn (f : ModFn) : Gen ModFn := do
  let inputs ← demutify f.sig.inputs
  return { f with sig := { f.sig with inputs, output := deimplify f.sig.output } }

/-- `mockable_item`, mockable_item.rs:12-17. -/
def mockableItem : ModItem → Gen ModItem
  | .fn f => do return .fn (← mockableFn f)
  | x => return x

/-- `MockableModule::from`, mockable_item.rs:58-81. -/
def mockableModule (m : ItemMod) : Gen MockableModule :=
  match m.content with
  | none => throw "automock can only mock inline modules, not modules from another file"
  | some l => do
    let content ← l.mapM mockableItem
    return { vis := m.vis, mockIdent := "mock_" ++ m.ident, origIdent := some m.ident, content }

/-! ## What is built from it -/

/-- A `MockFunction` of a module: `qual` is the rest of its `sig`, `parent` its `mod_ident`. -/
structure ModMeth where
  meth : Meth
  qual : Qual
  parent : Ident

/-- `MockItemContent`, mock_item.rs:43-46. -/
inductive ModContent
  | fn (f : ModMeth)
  | tokens (k : CopyKind) (s : String)

/-- The calls of `Builder` in mock_item.rs:76-81 and 113-118. -/
def modMeth (parent : Ident) (f : ModFn) : Gen ModMeth := do
  let fn ← build { sig := f.sig, vis := f.vis, levels := 1, callLevels := some 0,
                   concretize := f.attrs.any isConcretize }
  return ⟨⟨f.attrs, none, fn, f.qual⟩, f.qual, parent⟩

/-- The ABI and `unsafe` of a foreign function, mock_item.rs:88-111. -/
def foreignFn (abi : Option String) (f : ModFn) : ModFn :=
  { f with qual := { f.qual with
      isUnsafe := true
      abi := some (if abi = some "C" then some "C-unwind" else abi) } }

/-- The inner loop of mock_item.rs:85-124. -/
def foreignContent (parent : Ident) (abi : Option String) : List ForeignItem → Gen (List ModContent)
  | [] => return []
  | .fn f :: l => do
    let m ← modMeth parent (foreignFn abi f)
    let r ← foreignContent parent abi l
    return .fn m :: r
  | .other _ :: _ => throw "Mockall does not yet support  this type in this position.  Please open an issue with your use case at https://github.com/asomers/mockall"

/-- The loop of mock_item.rs:62-153. -/
def modContent (parent : Ident) : List ModItem → Gen (List ModContent)
  | [] => return []
  | .externCrate _ :: l => modContent parent l
  | .impl _ :: l => modContent parent l
  | .copied k s :: l => do
    let r ← modContent parent l
    return .tokens k s :: r
  | .fn f :: l => do
    let m ← modMeth parent f
    let r ← modContent parent l
    return .fn m :: r
  | .foreignMod _ abi items :: l => do
    let fs ← foreignContent parent abi items
    let r ← modContent parent l
    return fs ++ r
  | .nested _ :: _ => throw "Mockall does not yet support deriving nested mocks"
  | .other _ :: _ => throw "Unsupported item"

/-- `MockItemModule`, mock_item.rs:48-54. -/
structure MockItemModule where
  vis : Vis
  mockIdent : Ident
  origIdent : Option Ident
  content : List ModContent

/-- `MockItemModule::from`, mock_item.rs:56-163. -/
def mockItemModule (m : MockableModule) : Gen MockItemModule := do
  let content ← modContent m.mockIdent m.content
  return ⟨m.vis, m.mockIdent, m.origIdent, content⟩

/-! ## The code generated -/

/-- An item of the module generated. -/
inductive ModOut
  | copied (k : CopyKind) (tokens : String)
  /-- The private module of a function. -/
  | mod (attrs : List Attr) (name : Ident)
  /-- A function, with `#[no_mangle]` or not, that does
  `module::get_expectations().lock().unwrap().call(..)`. -/
  | call (attrs : List Attr) (noMangle : Bool) (vis : Vis) (qual : Qual) (sig : Sig) (module : Ident)
  /-- The same with `self.name.call(..)`: for functions with a receiver, which are not Rust in a module. -/
  | callSelf (attrs : List Attr) (noMangle : Bool) (vis : Vis) (qual : Qual) (sig : Sig)
  /-- `fn name() -> module::Context { module::Context::default() }`. -/
  | context (attrs : List Attr) (vis : Vis) (name : Ident) (module : Ident)
  /-- A function that has the blocks `module::get_expectations().lock().unwrap().checkpoint().collect()`. -/
  | checkpoint (vis : Vis) (name : Ident) (blocks : List (WithAttrs Ident))
  deriving DecidableEq

/-- `MockFunction::call(None)`, F:474-578. -/
def ModMeth.call (m : ModMeth) : ModOut :=
  let attrs := ({ mustUse := true } : AttrFormatter).format m.meth.attrs
  if m.meth.isStatic then
    .call attrs m.qual.noMangle m.meth.fn.callVis m.qual m.meth.fn.sig m.meth.innerMod
  else .callSelf attrs m.qual.noMangle m.meth.fn.callVis m.qual m.meth.fn.sig

/-- `MockFunction::context_fn(None)`, F:609-629. -/
def ModMeth.contextFn (m : ModMeth) : ModOut :=
  .context (noDoc m.meth.attrs) m.meth.fn.callVis (m.meth.name ++ "_context") m.meth.innerMod

/-- `MockFunction::priv_module`, F:824-889: its attributes and its name. -/
def ModMeth.privMod (m : ModMeth) : ModOut := .mod (noDoc m.meth.attrs) m.meth.innerMod

/-- `MockFunction::checkpoint`, F:581-601, of a function without receiver. -/
def ModMeth.checkpoint (m : ModMeth) : WithAttrs Ident := ⟨noDoc m.meth.attrs, m.meth.innerMod⟩

/-- The item's contribution to `body`, mock_item.rs:173-187. -/
def ModContent.items : ModContent → List ModOut
  | .tokens k s => [.copied k s]
  | .fn f => [f.privMod, f.call, f.contextFn]

/-- The item's contribution to `cp_body`, mock_item.rs:185. -/
def ModContent.stmts : ModContent → List (WithAttrs Ident)
  | .tokens _ _ => []
  | .fn f => [f.checkpoint]

/-- The module generated.  `docs` is the name in its doc comment. -/
structure OutMod where
  vis : Vis
  name : Ident
  docs : Option Ident
  items : List ModOut

/-- `MockItemModule::to_tokens`, mock_item.rs:165-213. -/
def MockItemModule.out (m : MockItemModule) : OutMod where
  vis := m.vis
  name := m.mockIdent
  docs := m.origIdent
  items := m.content.flatMap ModContent.items ++
    [.checkpoint .pub "checkpoint" (m.content.flatMap ModContent.stmts)]

/-- `mock_it` on a module, D:1296-1305. -/
def expandModule (m : ItemMod) : Gen OutMod := do
  let m ← mockableModule m
  let m ← mockItemModule m
  return m.out

end Mockall.Derive
