import Verif.Derive.Module

/-! # The names in panic messages

The generated code contains two texts that name its function: one for the messages of expectations, the other
for those of calls.  Here we model where they come from.  Abbreviations as in `Derive/Struct.lean`. -/

namespace Mockall.Derive

/-- `MockFunction::funcname`, F:765-771: printed by `Common` (F:961, F:1045, F:1052) and `Expectation` (F:2035,
F:2101, F:2192). -/
def funcname (struct_ : Option Ident) (name : Ident) : String :=
  match struct_ with
  | some s => s ++ "::" ++ name
  | none => name

/-- `MockFunction::desc`, F:632-643, up to the parenthesis.  `modIdent` is `Builder::parent`, F:371-374, which
is set for modules only. -/
def descname (struct_ : Option Ident) (modIdent name : Ident) : String :=
  match struct_ with
  | some s => s ++ "::" ++ name
  | none => modIdent ++ "::" ++ name

/-- The texts in the code of one method: those of its private module, and of the function itself. -/
structure Texts where
  module : List Ident
  func : String
  desc : String
  deriving DecidableEq

/-- The texts for one method of the struct `s`, with `struct_` as in S:218 and mock_trait.rs:95; `parent` keeps
its default, F:327. -/
def Meth.texts (s modname : Ident) (x : Meth) : Texts :=
  ⟨[modname, x.innerMod], funcname (some s) x.name, descname (some s) "FIXME" x.name⟩

/-- All texts in the code of a mock struct; the names of modules are those of S:269-281. -/
def MockItemStruct.texts (m : MockItemStruct) : List Texts :=
  m.methods.map (·.texts m.name m.modname) ++
    m.traits.flatMap fun t => t.methods.map (·.texts m.name (m.modname ++ "_" ++ t.ssName))

/-- The texts in the code that `expandStruct` generates. -/
def structTexts (hash : List Args → Nat) (m : MockableStruct) : Gen (List Texts) := do
  return (← mockItemStruct hash m).texts

/-- The texts for one function of a module: `struct_` is not set and `parent` is `mock_ident`, mock_item.rs:76-81
and 113-118. -/
def ModMeth.texts (x : ModMeth) : Texts :=
  ⟨[x.meth.innerMod], funcname none x.meth.name, descname none x.parent x.meth.name⟩

/-- The texts for one item of a module, mock_item.rs:173-187. -/
def ModContent.texts : ModContent → List Texts
  | .tokens _ _ => []
  | .fn f => [f.texts]

/-- All texts in the code of a mock module. -/
def MockItemModule.texts (m : MockItemModule) : List Texts := m.content.flatMap ModContent.texts

/-- The texts in the code that `expandModule` generates. -/
def moduleTexts (m : ItemMod) : Gen (List Texts) := do
  let m ← mockableModule m
  let m ← mockItemModule m
  return m.texts

end Mockall.Derive
