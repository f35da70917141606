import Verif.Derive.Module
import Verif.Spec.Struct
import Verif.Spec.Attrs

/-! # What a module offers to its users

For a module that is written (`ModItem`) and for one that is generated (`ModOut`); conditional compilation
is that of `Spec.Config`. -/

namespace Mockall.Spec

open Derive

/-- A function as its callers see it. -/
structure Callable where
  vis : Vis
  qual : Qual
  sig : Sig

/-- The functions of an `extern` block: they are unsafe and have the block's ABI. -/
def Config.foreignFns (c : Config) (abi : Option String) : List ForeignItem → List Callable
  | [] => []
  | .fn f :: l =>
    (if c.active f.attrs then [⟨f.vis, { f.qual with isUnsafe := true, abi := some abi }, f.sig⟩] else []) ++
      c.foreignFns abi l
  | .other _ :: l => c.foreignFns abi l

/-- The functions that are compiled in a module, in order. -/
def Config.functions (c : Config) : List ModItem → List Callable
  | [] => []
  | .fn f :: l => (if c.active f.attrs then [⟨f.vis, f.qual, f.sig⟩] else []) ++ c.functions l
  | .foreignMod a abi items :: l => (if c.active a then c.foreignFns abi items else []) ++ c.functions l
  | _ :: l => c.functions l

/-- The items that are neither functions nor types: constants, aliases and imports. -/
def copies : List ModItem → List (CopyKind × String)
  | [] => []
  | .copied k s :: l => (k, s) :: copies l
  | _ :: l => copies l

/-- The functions that are written in a module, whether they are compiled or not. -/
inductive Writes (l : List ModItem) : ModFn → Prop
  | fn (f) (h : .fn f ∈ l) : Writes l f
  | foreign (a abi items f) (h : .foreignMod a abi items ∈ l) (hf : .fn f ∈ items) : Writes l f

/-- What `rustc` checks: only methods have a `self`, and foreign functions do not return `impl Trait`. -/
structure ValidModule (l : List ModItem) : Prop where
  noSelf : ∀ f, Writes l f → ¬ IsMethod f.sig.inputs
  noImpl : ∀ a abi items f, .foreignMod a abi items ∈ l → .fn f ∈ items →
    ∀ bs, f.sig.output ≠ .ty (.implTrait bs)

/-- `extern "C-unwind"` is `extern "C"` but for panics: they may leave the function. -/
inductive SameAbi : Option (Option String) → Option (Option String) → Prop
  | same (a) : SameAbi a a
  | unwind : SameAbi (some (some "C")) (some (some "C-unwind"))

/-- The same argument, but for the `mut` of its name. -/
inductive SameArg : FnArg → FnArg → Prop
  | mk (a m m' i t) : SameArg (.typed a (.ident false m i false) t) (.typed a (.ident false m' i false) t)

/-- The trait is `Future` or `Stream`, however it is spelled: only usable when pinned. -/
def PinnedTrait (b : Bound) : Prop :=
  ∃ m ls lead init id args, b = .trait m ls lead (init ++ [.mk id args]) ∧ (id = "Future" ∨ id = "Stream")

/-- `Box<dyn bs>`. -/
def boxOf (bs : List Bound) : Ty := .path false [.mk "Box" (.angle [.ty (.traitObject bs)])]

/-- `::std::pin::Pin<t>`. -/
def pinOf (t : Ty) : Ty := .path true [.mk "std" .none, .mk "pin" .none, .mk "Pin" (.angle [.ty t])]

/-- The type that is returned for a declared one: `impl Trait` is boxed, and pinned if it must be. -/
inductive Returns : Ret → Ret → Prop
  | same (r) (h : ∀ bs, r ≠ .ty (.implTrait bs)) : Returns r r
  | boxed (bs) (h : ∀ b ∈ bs, ¬ PinnedTrait b) : Returns (.ty (.implTrait bs)) (.ty (boxOf bs))
  | pinned (bs) (h : ∃ b ∈ bs, PinnedTrait b) : Returns (.ty (.implTrait bs)) (.ty (pinOf (boxOf bs)))

/-- Whoever can call `a` can call `b` in its place. -/
structure Replaces (a b : Callable) : Prop where
  vis : b.vis = a.vis
  isConst : b.qual.isConst = a.qual.isConst
  isAsync : b.qual.isAsync = a.qual.isAsync
  isUnsafe : b.qual.isUnsafe = a.qual.isUnsafe
  abi : SameAbi a.qual.abi b.qual.abi
  name : b.sig.ident = a.sig.ident
  generics : b.sig.generics = a.sig.generics
  inputs : Pointwise SameArg a.sig.inputs b.sig.inputs
  output : Returns a.sig.output b.sig.output

/-! ## The module generated -/

/-- An item without what is not compiled. -/
def Config.modOut (c : Config) : ModOut → Option ModOut
  | .copied k s => some (.copied k s)
  | .mod a n => if c.active a then some (.mod a n) else none
  | .call a nm v q s m => if c.active a then some (.call a nm v q s m) else none
  | .callSelf a nm v q s => if c.active a then some (.callSelf a nm v q s) else none
  | .context a v n m => if c.active a then some (.context a v n m) else none
  | .checkpoint v n l => some (.checkpoint v n (l.filter fun x => c.active x.attrs))

/-- The items that are compiled. -/
def Config.stripMod (c : Config) (l : List ModOut) : List ModOut := l.filterMap c.modOut

/-- The functions that call expectations, and the module these are in. -/
def mockCalls (l : List ModOut) : List (Callable × Ident) :=
  l.filterMap fun | .call _ _ v q s m => some (⟨v, q, s⟩, m) | _ => none

/-- The functions that make a context: name, visibility, and the module whose expectations it sets. -/
def contexts (l : List ModOut) : List (Ident × Vis × Ident) :=
  l.filterMap fun | .context _ v n m => some (n, v, m) | _ => none

/-- The modules in the module. -/
def modules (l : List ModOut) : List Ident :=
  l.filterMap fun | .mod _ n => some n | _ => none

/-- The checkpoint functions, with the modules whose expectations they verify, in order. -/
def checkpointFns (l : List ModOut) : List (Ident × Vis × List Ident) :=
  l.filterMap fun | .checkpoint v n l => some (n, v, l.map WithAttrs.val) | _ => none

/-- The items that are copied. -/
def copiedItems (l : List ModOut) : List (CopyKind × String) :=
  l.filterMap fun | .copied k s => some (k, s) | _ => none

/-- Attributes that remove an item are not taken for `concretize` (see C47). -/
def Config.Plain (c : Config) (l : List Attr) : Prop :=
  ∀ a ∈ l, c.lets a = false → Spec.Plain a ∧ ¬ IsConcretize a

/-- No `extern` block is removed. -/
def Config.Blocks (c : Config) (l : List ModItem) : Prop :=
  ∀ a abi items, .foreignMod a abi items ∈ l → c.active a = true

/-! ## Functions that C code can call -/

/-- ABIs whose functions a panic may leave; from any other it aborts the process (RFC 2945). -/
def mayUnwind : Option (Option String) → Bool
  | none => true
  | some none => false
  | some (some s) => s ∈ ["Rust", "C-unwind", "system-unwind", "cdecl-unwind", "stdcall-unwind",
      "fastcall-unwind", "thiscall-unwind", "vectorcall-unwind", "sysv64-unwind", "win64-unwind",
      "aapcs-unwind"]

/-- `extern` alone is `extern "C"`. -/
def abiName : Option String → String
  | none => "C"
  | some s => s

end Mockall.Spec
