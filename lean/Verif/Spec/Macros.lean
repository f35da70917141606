import Verif.Spec.Mockable
import Verif.Spec.Attrs
import Verif.Spec.Double

/-! # What the macros make of traits, `impl`s and `mock!` -/

namespace Mockall.Spec

open Derive

/-! ## Writing the mock of a trait by hand -/

/-- The change on the type of an argument. -/
def onArg (A : Ty → Ty) : FnArg → FnArg
  | .typed a p t => .typed a p (A t)
  | a => a

/-- What one would write in `mock!` for the item of a trait. -/
def writeItem (A : Ty → Ty) (σ : Ident → Option Ty) : TraitItem → ImplItem
  | .const c => .const { attrs := c.attrs, id := c.id, ty := c.ty, value := c.dflt.getD "" }
  | .type t => .type { attrs := t.attrs, id := t.id, ty := (σ t.id).getD .never }
  | .fn f => .fn { attrs := f.attrs, qual := f.qual
                   sig := { f.sig with inputs := f.sig.inputs.map (onArg A), output := onRet A f.sig.output } }
  | .other s => .other s

/-- ```
mock! {
    attrs
    #[derive(Debug)]
    vis Foo<generics> {}
    impl<generics> Foo<args> for Foo<args> { .. }
}
``` -/
def handwritten (A : Ty → Ty) (σ : Ident → Option Ty) (attrs : List Attr) (t : ItemTrait) : Bang where
  attrs := attrs ++ [.plain [] "derive" ["Debug"]]
  vis := t.vis
  ident := t.ident
  generics := t.generics
  impls := [.impl {
    attrs := t.attrs
    isUnsafe := t.isUnsafe
    generics := t.generics
    trait := some ⟨false, [.mk t.ident (paramArgs t.generics.params)]⟩
    selfTy := .path false [.mk t.ident (paramArgs t.generics.params)]
    items := t.items.map (writeItem A σ) }]

/-! ## Constructors -/

/-- A method or the method of a trait is called `new`. -/
def NamesNew (m : MockableStruct) : Prop :=
  (∃ f ∈ m.methods, f.sig.ident = "new") ∨ ∃ i ∈ m.impls, ∃ f, .fn f ∈ i.items ∧ f.sig.ident = "new"

/-- `#[derive(.., Debug, ..)]`. -/
def DerivesDebug (l : List Attr) : Prop := ∃ args, .plain [] "derive" args ∈ l ∧ "Debug" ∈ args

/-- The types that implement `Debug`. -/
def debugged (l : List Item) : List Ident := l.filterMap fun | .debug n => some n | _ => none

/-! ## `impl`s and `mock!` -/

/-- The methods of an `impl`. -/
def methodsOf (l : List ImplItem) : List ImplFn := l.filterMap fun | .fn f => some f | _ => none

/-- The constants of an `impl`. -/
def constsOf (l : List ImplItem) : List ConstItem := l.filterMap fun | .const f => some f | _ => none

/-- The types of an `impl`. -/
def typesOf (l : List ImplItem) : List TypeItem := l.filterMap fun | .type f => some f | _ => none

/-- The type that an `impl` gives to a name. -/
def implTypeOf : List ImplItem → Ident → Option Ty
  | [], _ => none
  | .type t :: l, i => (implTypeOf l i).or (if t.id = i then some t.ty else none)
  | _ :: l, i => implTypeOf l i

/-- The methods in the braces of `mock!`. -/
def bangMethods (l : List BangItem) : List ImplFn := l.filterMap fun | .method f => some f | _ => none

/-- The constants in the braces of `mock!`. -/
def bangConsts (l : List BangItem) : List ConstItem := l.filterMap fun | .const f => some f | _ => none

/-- The traits in `mock!`. -/
def bangTraits (l : List BangImpl) : List TraitPath :=
  l.filterMap fun | .impl i => i.trait | _ => none

/-- `g`, of visibility `v`, is a mock of the method `f`. -/
structure MocksMethod (A : Ty → Ty) (R : Rewrite) (v : ImplFn → Vis) (f : ImplFn) (g : FnItem) : Prop where
  name : g.name = f.sig.ident
  vis : g.head.vis = v f
  qual : g.head.qual = f.qual
  active : ∀ c : Config, c.Plain f.attrs → c.active g.attrs = c.active f.attrs
  sig : ∃ s, g.head.sig = some s ∧ MockSig A R f.sig s
  attrs : (∀ a ∈ f.attrs, Plain a) → Without (Stripped true true true) f.attrs g.attrs

/-- The items contain `impl trait for s<args>` with these methods, and the rest as in `i`. -/
def Implements (A : Ty → Ty) (R : Rewrite) (i : ItemImpl) (s : Ident) (args : Args) (p : TraitPath)
    (items : List Item) : Prop :=
  ∃ hd fns, .impl hd s (some p) fns ∈ items ∧ hd.isUnsafe = i.isUnsafe ∧ hd.generics = i.generics ∧
    hd.selfArgs = args ∧ hd.consts = constsOf i.items ∧ hd.types = typesOf i.items ∧
    Pointwise (MocksMethod A R fun _ => .inherited) (methodsOf i.items) fns

/-- The items contain `impl s` with these constants and, before all others, mocks of these methods. -/
def Offers (R : Rewrite) (g : Generics) (consts : List ConstItem) (fs : List ImplFn) (s : Ident)
    (items : List Item) : Prop :=
  ∃ hd fns rest, .impl hd s none (fns ++ rest) ∈ items ∧ hd.generics = g ∧ hd.selfArgs = paramArgs g.params ∧
    hd.consts = consts ∧ Pointwise (MocksMethod id R ImplFn.vis) fs fns

/-! ## Names -/

/-- A struct of this name is among the items. -/
def Declares (items : List Item) (n : Ident) : Prop := ∃ hd fields, .struct hd n fields ∈ items

/-- The mock of something called `n`, made by `#[automock]` on a trait, on an `impl`, or by `mock!`. -/
inductive MockedType (hash : List Args → Nat) : Ident → List Item → Prop
  | trait (σ t items) (h : automockTrait hash σ t = .ok items) : MockedType hash t.ident items
  | impl (i : ItemImpl) (lead n args items) (hs : i.selfTy = .path lead [.mk n args])
    (h : automockImpl hash i = .ok items) : MockedType hash n items
  | mock (b items) (h : mockBang hash b = .ok items) : MockedType hash b.ident items

end Mockall.Spec
