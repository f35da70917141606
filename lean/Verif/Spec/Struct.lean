import Verif.Derive.Struct
import Verif.Spec.Build

/-! # What generated code means

Conditional compilation, the rules about names that `rustc` checks, and what `checkpoint` and dropping do.
Only the code (`Item`) is looked at, not how it was generated. -/

namespace Mockall.Spec

open Derive

/-- A configuration says which attributes let their item be; only `cfg` and `cfg_attr` can remove it. -/
structure Config where
  lets : Attr → Bool
  only : ∀ a, lets a = false → (∃ args, a = .plain [] "cfg" args) ∨ ∃ p as, a = .cfgAttr p as

/-- An item with these attributes is compiled. -/
def Config.active (c : Config) (l : List Attr) : Bool := l.all c.lets

/-- A function without the statements that are not compiled. -/
def Config.body (c : Config) : Body → Body
  | .checkpoint l => .checkpoint (l.filter fun x => c.active x.attrs)
  | b => b

/-- An `impl` without the constants and types that are not compiled. -/
def Config.head (c : Config) (h : ImplHead) : ImplHead :=
  { h with consts := h.consts.filter fun x => c.active x.attrs
           types := h.types.filter fun x => c.active x.attrs }

/-- The item without what is not compiled. -/
def Config.item (c : Config) : Item → Option Item
  | .mod a n l => if c.active a then some (.mod a n (l.filter fun x => c.active x.attrs)) else none
  | .struct a n l => if c.active a.attrs then some (.struct a n (l.filter fun x => c.active x.attrs)) else none
  | .dflt a n l => if c.active a then some (.dflt a n (l.filter fun x => c.active x.attrs)) else none
  | .impl a n t l =>
    if c.active a.attrs then
      some (.impl (c.head a) n t ((l.filter fun x => c.active x.attrs).map fun f => { f with body := c.body f.body }))
    else none
  | .debug n => some (.debug n)

/-- The code that is compiled. -/
def Config.strip (c : Config) (l : List Item) : List Item := l.filterMap c.item

/-- The name of a struct. -/
def structName : Item → Option Ident
  | .struct _ n _ => some n
  | _ => none

/-- The name of a module. -/
def modName : Item → Option Ident
  | .mod _ n _ => some n
  | _ => none

/-- What `rustc` checks about names: structs, modules, the fields of a struct, the modules in a module and
the functions in an `impl` are distinct. -/
structure Accepted (items : List Item) : Prop where
  structs : (items.filterMap structName).Nodup
  mods : (items.filterMap modName).Nodup
  fields : ∀ a n fs, .struct a n fs ∈ items → (fs.map Field.name).Nodup
  inner : ∀ a n l, .mod a n l ∈ items → (l.map WithAttrs.val).Nodup
  fns : ∀ a n t fs, .impl a n t fs ∈ items → (fs.map FnItem.name).Nodup

/-- The struct `s` has a field `f` of type `t`. -/
def HasField (items : List Item) (s f : Ident) (t : FieldTy) : Prop :=
  ∃ a fs fa, .struct a s fs ∈ items ∧ ⟨fa, f, t⟩ ∈ fs

/-- The path names a module. -/
def HasModule (items : List Item) (p : List Ident) : Prop :=
  ∃ a m l ia i, .mod a m l ∈ items ∧ ⟨ia, i⟩ ∈ l ∧ p = [m, i]

/-- There is a function `n` in an `impl s` or an `impl t for s`. -/
def HasFn (items : List Item) (s : Ident) (t : Option TraitPath) (n : Ident) (b : Body) : Prop :=
  ∃ a fs fa, .impl a s t fs ∈ items ∧ ⟨fa, n, b⟩ ∈ fs

/-- The type is a path to a type called `n`. -/
def IsPathTo (n : Ident) (t : Ty) : Prop := ∃ lead segs args, t = .path lead (segs ++ [.mk n args])

/-- The store `self.p` of the struct `s`, for the expectations of `module`. -/
inductive IsStore (items : List Item) : Ident → List Ident → List Ident → Prop
  | here (s f module g) (h : HasField items s f (.store module g)) : IsStore items s [f] module
  | sub (s f s' p module) (h : HasField items s f (.sub s')) (k : IsStore items s' p module) :
    IsStore items s (f :: p) module

/-- The stores that the fields hold, in the order in which Rust drops them: that of declaration. -/
inductive Holds (items : List Item) : List Field → List (List Ident) → Prop
  | nil : Holds items [] []
  | store {a f m g fs l} (h : Holds items fs l) : Holds items (⟨a, f, .store m g⟩ :: fs) ([f] :: l)
  | sub {a f s' fs l} {a' fs' l'} (hs : .struct a' s' fs' ∈ items) (h' : Holds items fs' l')
    (h : Holds items fs l) : Holds items (⟨a, f, .sub s'⟩ :: fs) (l'.map (f :: ·) ++ l)
  | phantom {a f p fs l} (h : Holds items fs l) : Holds items (⟨a, f, .phantom p⟩ :: fs) l

/-- The order in which the stores of an `s` are dropped. -/
def DropOrder (items : List Item) (s : Ident) (l : List (List Ident)) : Prop :=
  ∃ a fs, .struct a s fs ∈ items ∧ Holds items fs l

/-- The statements, run on an `s`, checkpoint these stores in this order. -/
inductive Runs (items : List Item) : Ident → List (WithAttrs (List Ident)) → List (List Ident) → Prop
  | nil (s) : Runs items s [] []
  | store {s a f m g stmts l} (hf : HasField items s f (.store m g)) (h : Runs items s stmts l) :
    Runs items s (⟨a, [f]⟩ :: stmts) ([f] :: l)
  | sub {s a f stmts l} {s' stmts' l'} (hf : HasField items s f (.sub s'))
    (hc : HasFn items s' none "checkpoint" (.checkpoint stmts')) (h' : Runs items s' stmts' l')
    (h : Runs items s stmts l) : Runs items s (⟨a, [f]⟩ :: stmts) (l'.map (f :: ·) ++ l)

/-- `checkpoint()` of an `s` checkpoints these stores in this order. -/
def Checkpoints (items : List Item) (s : Ident) (l : List (List Ident)) : Prop :=
  ∃ stmts, HasFn items s none "checkpoint" (.checkpoint stmts) ∧ Runs items s stmts l

end Mockall.Spec
