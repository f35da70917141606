import Verif.Derive.Mockable
import Verif.Derive.Module

/-! # The macros as the compiler calls them (mockall_derive/src/lib.rs:1296-1388, automock.rs:8-28, 253-272,
mockable_item.rs:24-47)

How tokens are parsed (`syn`) is not modelled: parsers are parameters. -/

namespace Mockall.Derive

/-- An attribute of `#[automock(..)]`, automock.rs:9-11: a `syn::TraitItemType`, `type X = T;`.  Its attributes, bounds
and generics are not looked at. -/
structure TypeAttr where
  id : Ident
  dflt : Option Ty

/-- `HashMap::insert`. -/
def Subst.insert (σ : Subst) (i : Ident) (t : Ty) : Subst := (i, t) :: σ.filter fun e => e.1 ≠ i

/-- `Attrs::parse`, automock.rs:253-272, when every attribute is a `type`. -/
def collectAttrs (σ : Subst) : List TypeAttr → Gen Subst
  | [] => return σ
  | a :: l =>
    match a.dflt with
    | some t => collectAttrs (σ.insert a.id t) l
    | none => throw "automock type attributes must have a default value"

/-- `syn::Item`. -/
inductive InItem
  | impl (i : ItemImpl)
  | module (m : ItemMod)
  | trait (t : ItemTrait)
  | other (tokens : String)

/-- What is generated: `MockItem::to_tokens`, mock_item.rs:33-41. -/
inductive MockCode
  | struct (l : List Item)
  | module (m : OutMod)

/-- `mock_it((attrs, item))`, D:1295-1304, with `MockableItem::from`, mockable_item.rs:29-41.  Printing the code when
`MOCKALL_DEBUG` is set is left out. -/
def mockIt (hash : List Args → Nat) (σ : Subst) : InItem → Gen MockCode
  | .impl i => return .struct (← automockImpl hash i)
  | .module m => return .module (← expandModule m)
  | .trait t => return .struct (← automockTrait hash σ t)
  | .other _ => throw "automock does not support this item type"

/-- A part of the output of a macro. -/
inductive Piece (T : Type)
  /-- tokens of the input -/
  | given (t : T)
  /-- generated code -/
  | mock (c : MockCode)
  /-- `compile_error!{..}`, from `syn::Error::to_compile_error` -/
  | error (msg : String)

/-- `do_automock_once`, D:1353-1369.  `.error` stands for a panic of the macro or an error that it emits. -/
def automock {T : Type} (hash : List Args → Nat) (parseAttrs : T → Except String (List TypeAttr))
    (parseItem : T → Except String InItem) (attrs input : T) : Gen (List (Piece T)) :=
  match parseAttrs attrs with
  | .error e => return [.error e]
  | .ok l => do
    let σ ← collectAttrs [] l
    match parseItem input with
    | .error e => return [.error e]
    | .ok item =>
      let c ← mockIt hash σ item
      return [.given input, .mock c]

/-- `do_mock_once`, D:1306-1315. -/
def mock {T : Type} (hash : List Args → Nat) (parse : T → Except String Bang) (input : T) : Gen (List (Piece T)) :=
  match parse input with
  | .error e => return [.error e]
  | .ok b => do
    let l ← mockBang hash b
    return [.mock (.struct l)]

/-- `#[concretize]`, D:1331-1340. -/
def concretizeMacro {T : Type} (_attrs input : T) : List (Piece T) := [.given input]

end Mockall.Derive
