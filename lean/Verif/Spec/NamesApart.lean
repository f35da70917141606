import Verif.Spec.Struct
import Verif.Spec.Module

/-! # Names that the user writes in the definition of a mock, and names that Mockall adds -/

namespace Mockall.Spec

open Derive

/-- No `#[cfg(..)]` among the attributes removes what they are attached to. -/
def Config.keeps (c : Config) (l : List Attr) : Bool :=
  l.all fun
    | .plain [] "cfg" args => c.lets (.plain [] "cfg" args)
    | _ => true

/-- The function has a receiver. -/
def takesSelf (f : ImplFn) : Bool := f.sig.inputs.any fun | .receiver _ _ _ _ => true | _ => false

/-- The function with which users set expectations for `f`. -/
def companion (f : ImplFn) : Ident := if takesSelf f then "expect_" ++ f.sig.ident else f.sig.ident ++ "_context"

/-- The struct's own functions. -/
def ownFns (c : Config) (m : MockableStruct) : List ImplFn := m.methods.filter fun f => c.keeps f.attrs

/-- The `impl`s of traits. -/
def keptImpls (c : Config) (m : MockableStruct) : List ItemImpl := m.impls.filter fun i => c.keeps i.attrs

/-- The functions in an `impl`. -/
def implFns (c : Config) (i : ItemImpl) : List ImplFn :=
  (i.items.filterMap fun | .fn f => some f | _ => none).filter fun f => c.keeps f.attrs

/-- The functions, and their companions, have names of their own. -/
structure FnsApart (l : List ImplFn) : Prop where
  names : (l.map fun f => f.sig.ident).Nodup
  companions : ∀ f ∈ l, ∀ g ∈ l, companion f = companion g → f.sig.ident = g.sig.ident

/-- What the user has to respect about names. -/
structure NamesApart (hash : List Args → Nat) (c : Config) (m : MockableStruct) : Prop where
  own : FnsApart (ownFns c m)
  /-- no function of the struct is called like a companion of one -/
  hidden : ∀ f ∈ ownFns c m, ∀ g ∈ ownFns c m, companion f ≠ g.sig.ident
  /-- nor like the function that Mockall always adds -/
  checkpoint : ∀ f ∈ ownFns c m, f.sig.ident ≠ "checkpoint"
  impl : ∀ i ∈ keptImpls c m, FnsApart (implFns c i)
  /-- no method is called `_t0` or the like, if the struct has so many parameters -/
  markers : ∀ f, (f ∈ ownFns c m ∨ ∃ i ∈ keptImpls c m, f ∈ implFns c i) → takesSelf f = true →
    ∀ n, n < m.generics.params.length → f.sig.ident ≠ "_t" ++ toString n
  /-- no method is called like a trait with `_expectations` behind it -/
  stores : ∀ f ∈ ownFns c m, takesSelf f = true → ∀ i ∈ keptImpls c m, ∀ p, i.trait = some p →
    f.sig.ident ≠ ssNameOf hash p ++ "_expectations"
  /-- different traits have different names (see C80), and a trait that is implemented several times, for different
  arguments of the struct, has the same attributes each time -/
  traits : ∀ i ∈ keptImpls c m, ∀ j ∈ keptImpls c m, ∀ p q, i.trait = some p → j.trait = some q →
    ssNameOf hash p = ssNameOf hash q → p = q ∧ i.attrs = j.attrs

/-- The arguments of a type. -/
def lastArgs : Ty → Option Args
  | .path _ segs => segs.getLast?.map Seg.args
  | .qpath _ _ _ segs => segs.getLast?.map Seg.args
  | _ => none

/-- The functions of the struct for a type: its own, and those of the `impl`s that are for it.  `q` says which arguments
after the struct's name the type matches: `MockFoo<u8>` matches the arguments `<u8>`, and `<T>` if `T` is a parameter. -/
def fnsFor (c : Config) (m : MockableStruct) (q : Args → Bool) : List ImplFn :=
  ownFns c m ++ ((keptImpls c m).filter fun i => (lastArgs i.selfTy).any q).flatMap (implFns c)

/-- The inherent functions of a type, from all `impl` blocks that it matches. -/
def inherent (items : List Item) (n : Ident) (q : Args → Bool) : List Ident :=
  items.flatMap fun
    | .impl h n' none fs => if n' = n ∧ q h.selfArgs = true then fs.map FnItem.name else []
    | _ => []

/-- The functions of a generated module. -/
def moduleFns (l : List ModOut) : List Ident :=
  l.filterMap fun
    | .call _ _ _ _ s _ => some s.ident
    | .callSelf _ _ _ _ s => some s.ident
    | .context _ _ n _ => some n
    | .checkpoint _ n _ => some n
    | .copied _ _ => none
    | .mod _ _ => none

end Mockall.Spec
