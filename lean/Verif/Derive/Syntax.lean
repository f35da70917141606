/-! # The syntax trees the macros work on

The part of `syn`'s syntax tree that `mockall_derive` and `mockall_double` look at.  Tokens that carry
no information (punctuation, spans) are left out; so are the turbofish `::` of generic arguments, the
generics of an associated type binding (`Item<'a> = T`), attributes and names of the arguments of a
bare `fn`, and its `unsafe`/`extern`/variadic parts: no function of the crate looks at those. -/

namespace Mockall.Derive

/-- `syn::Ident`, including the keywords `self`, `super`, `crate` and `Self` allowed in paths. -/
abbrev Ident := String

/-- `syn::Lifetime`, without the tick. -/
abbrev Lt := String

/-- Constant expressions inside types (`syn::Expr`).  The macros never look into them; we tell paths
apart because their meaning depends on the module they are in. -/
inductive Expr
  | path (lead : Bool) (segs : List Ident)
  | other (tokens : String)
  deriving DecidableEq, Repr

mutual
/-- `syn::Type`.  A `TypePath` with a `qself` is a constructor of its own. -/
inductive Ty
  | array (elem : Ty) (len : Expr)
  | bareFn (lts : List Lt) (inputs : List Ty) (output : Ret)
  | group (elem : Ty)
  | implTrait (bounds : List Bound)
  | infer
  | mac (tokens : String)
  | never
  | paren (elem : Ty)
  | path (lead : Bool) (segs : List Seg)
  | qpath (self : Ty) (pos : Nat) (lead : Bool) (segs : List Seg)
  | ptr (isMut : Bool) (elem : Ty)
  | ref (lt : Option Lt) (isMut : Bool) (elem : Ty)
  | slice (elem : Ty)
  | traitObject (bounds : List Bound)
  | tuple (elems : List Ty)
  | verbatim (tokens : String)
/-- `syn::ReturnType`. -/
inductive Ret
  | unit
  | ty (t : Ty)
/-- `syn::PathSegment`. -/
inductive Seg
  | mk (id : Ident) (args : Args)
/-- `syn::PathArguments`. -/
inductive Args
  | none
  | angle (args : List GArg)
  | paren (inputs : List Ty) (output : Ret)
/-- `syn::GenericArgument`. -/
inductive GArg
  | lt (l : Lt)
  | ty (t : Ty)
  | const (e : Expr)
  | assocTy (id : Ident) (t : Ty)
  | assocConst (id : Ident) (e : Expr)
  | constraint (id : Ident) (bounds : List Bound)
/-- `syn::TypeParamBound`; `maybe` is the modifier `?`, `lts` are the lifetimes of `for<..>`. -/
inductive Bound
  | trait (maybe : Bool) (lts : List Lt) (lead : Bool) (segs : List Seg)
  | lt (l : Lt)
  | other (tokens : String)
end

/-! `syn`'s types implement `Eq`. -/

mutual
def Ty.beq : Ty → Ty → Bool
  | .array e l, .array e' l' => e.beq e' && l == l'
  | .bareFn l i o, .bareFn l' i' o' => l == l' && tysBeq i i' && o.beq o'
  | .group e, .group e' => e.beq e'
  | .implTrait b, .implTrait b' => boundsBeq b b'
  | .infer, .infer => true
  | .mac s, .mac s' => s == s'
  | .never, .never => true
  | .paren e, .paren e' => e.beq e'
  | .path l s, .path l' s' => l == l' && segsBeq s s'
  | .qpath q p l s, .qpath q' p' l' s' => q.beq q' && p == p' && l == l' && segsBeq s s'
  | .ptr m e, .ptr m' e' => m == m' && e.beq e'
  | .ref l m e, .ref l' m' e' => l == l' && m == m' && e.beq e'
  | .slice e, .slice e' => e.beq e'
  | .traitObject b, .traitObject b' => boundsBeq b b'
  | .tuple l, .tuple l' => tysBeq l l'
  | .verbatim s, .verbatim s' => s == s'
  | _, _ => false
def Ret.beq : Ret → Ret → Bool
  | .unit, .unit => true
  | .ty t, .ty t' => t.beq t'
  | _, _ => false
def Seg.beq : Seg → Seg → Bool
  | .mk i a, .mk i' a' => i == i' && a.beq a'
def Args.beq : Args → Args → Bool
  | .none, .none => true
  | .angle l, .angle l' => gargsBeq l l'
  | .paren i o, .paren i' o' => tysBeq i i' && o.beq o'
  | _, _ => false
def GArg.beq : GArg → GArg → Bool
  | .lt l, .lt l' => l == l'
  | .ty t, .ty t' => t.beq t'
  | .const e, .const e' => e == e'
  | .assocTy i t, .assocTy i' t' => i == i' && t.beq t'
  | .assocConst i e, .assocConst i' e' => i == i' && e == e'
  | .constraint i b, .constraint i' b' => i == i' && boundsBeq b b'
  | _, _ => false
def Bound.beq : Bound → Bound → Bool
  | .trait m l c s, .trait m' l' c' s' => m == m' && l == l' && c == c' && segsBeq s s'
  | .lt l, .lt l' => l == l'
  | .other s, .other s' => s == s'
  | _, _ => false
def tysBeq : List Ty → List Ty → Bool
  | [], [] => true
  | a :: l, b :: m => a.beq b && tysBeq l m
  | _, _ => false
def segsBeq : List Seg → List Seg → Bool
  | [], [] => true
  | a :: l, b :: m => a.beq b && segsBeq l m
  | _, _ => false
def gargsBeq : List GArg → List GArg → Bool
  | [], [] => true
  | a :: l, b :: m => a.beq b && gargsBeq l m
  | _, _ => false
def boundsBeq : List Bound → List Bound → Bool
  | [], [] => true
  | a :: l, b :: m => a.beq b && boundsBeq l m
  | _, _ => false
end

mutual
theorem Ty.beq_iff : ∀ a b : Ty, a.beq b = true ↔ a = b
  | .array e l, b => by cases b <;> simp [Ty.beq, Ty.beq_iff e]
  | .bareFn l i o, b => by cases b <;> simp [Ty.beq, tysBeq_iff i, Ret.beq_iff o, and_assoc]
  | .group e, b => by cases b <;> simp [Ty.beq, Ty.beq_iff e]
  | .implTrait l, b => by cases b <;> simp [Ty.beq, boundsBeq_iff l]
  | .infer, b => by cases b <;> simp [Ty.beq]
  | .mac s, b => by cases b <;> simp [Ty.beq]
  | .never, b => by cases b <;> simp [Ty.beq]
  | .paren e, b => by cases b <;> simp [Ty.beq, Ty.beq_iff e]
  | .path l s, b => by cases b <;> simp [Ty.beq, segsBeq_iff s]
  | .qpath q p l s, b => by cases b <;> simp [Ty.beq, Ty.beq_iff q, segsBeq_iff s, and_assoc]
  | .ptr m e, b => by cases b <;> simp [Ty.beq, Ty.beq_iff e]
  | .ref l m e, b => by cases b <;> simp [Ty.beq, Ty.beq_iff e, and_assoc]
  | .slice e, b => by cases b <;> simp [Ty.beq, Ty.beq_iff e]
  | .traitObject l, b => by cases b <;> simp [Ty.beq, boundsBeq_iff l]
  | .tuple l, b => by cases b <;> simp [Ty.beq, tysBeq_iff l]
  | .verbatim s, b => by cases b <;> simp [Ty.beq]
theorem Ret.beq_iff : ∀ a b : Ret, a.beq b = true ↔ a = b
  | .unit, b => by cases b <;> simp [Ret.beq]
  | .ty t, b => by cases b <;> simp [Ret.beq, Ty.beq_iff t]
theorem Seg.beq_iff : ∀ a b : Seg, a.beq b = true ↔ a = b
  | .mk i a, .mk i' a' => by simp [Seg.beq, Args.beq_iff a]
theorem Args.beq_iff : ∀ a b : Args, a.beq b = true ↔ a = b
  | .none, b => by cases b <;> simp [Args.beq]
  | .angle l, b => by cases b <;> simp [Args.beq, gargsBeq_iff l]
  | .paren i o, b => by cases b <;> simp [Args.beq, tysBeq_iff i, Ret.beq_iff o]
theorem GArg.beq_iff : ∀ a b : GArg, a.beq b = true ↔ a = b
  | .lt l, b => by cases b <;> simp [GArg.beq]
  | .ty t, b => by cases b <;> simp [GArg.beq, Ty.beq_iff t]
  | .const e, b => by cases b <;> simp [GArg.beq]
  | .assocTy i t, b => by cases b <;> simp [GArg.beq, Ty.beq_iff t]
  | .assocConst i e, b => by cases b <;> simp [GArg.beq]
  | .constraint i l, b => by cases b <;> simp [GArg.beq, boundsBeq_iff l]
theorem Bound.beq_iff : ∀ a b : Bound, a.beq b = true ↔ a = b
  | .trait m l c s, b => by cases b <;> simp [Bound.beq, segsBeq_iff s, and_assoc]
  | .lt l, b => by cases b <;> simp [Bound.beq]
  | .other s, b => by cases b <;> simp [Bound.beq]
theorem tysBeq_iff : ∀ a b : List Ty, tysBeq a b = true ↔ a = b
  | [], b => by cases b <;> simp [tysBeq]
  | a :: l, b => by cases b <;> simp [tysBeq, Ty.beq_iff a, tysBeq_iff l]
theorem segsBeq_iff : ∀ a b : List Seg, segsBeq a b = true ↔ a = b
  | [], b => by cases b <;> simp [segsBeq]
  | a :: l, b => by cases b <;> simp [segsBeq, Seg.beq_iff a, segsBeq_iff l]
theorem gargsBeq_iff : ∀ a b : List GArg, gargsBeq a b = true ↔ a = b
  | [], b => by cases b <;> simp [gargsBeq]
  | a :: l, b => by cases b <;> simp [gargsBeq, GArg.beq_iff a, gargsBeq_iff l]
theorem boundsBeq_iff : ∀ a b : List Bound, boundsBeq a b = true ↔ a = b
  | [], b => by cases b <;> simp [boundsBeq]
  | a :: l, b => by cases b <;> simp [boundsBeq, Bound.beq_iff a, boundsBeq_iff l]
end

instance : DecidableEq Ty := fun a b => decidable_of_iff _ (Ty.beq_iff a b)
instance : DecidableEq Ret := fun a b => decidable_of_iff _ (Ret.beq_iff a b)
instance : DecidableEq Seg := fun a b => decidable_of_iff _ (Seg.beq_iff a b)
instance : DecidableEq Args := fun a b => decidable_of_iff _ (Args.beq_iff a b)
instance : DecidableEq GArg := fun a b => decidable_of_iff _ (GArg.beq_iff a b)
instance : DecidableEq Bound := fun a b => decidable_of_iff _ (Bound.beq_iff a b)

/-- `PathSegment::ident`. -/
def Seg.id : Seg → Ident
  | .mk i _ => i

/-- `PathSegment::arguments`. -/
def Seg.args : Seg → Args
  | .mk _ a => a

/-- `PathSegment::from(ident)`. -/
def Seg.of (i : Ident) : Seg := .mk i .none

/-- The type written as a bare identifier, `parse2(quote!(#ident))`. -/
def Ty.name (i : Ident) : Ty := .path false [.of i]

/-- `compile_error(..)` (D:45-59, X:22-37) panics, or, with the feature `nightly`, emits an error and
goes on; either way the crate does not compile.  We model the former: the rest is an error value. -/
abbrev Gen := Except String

/-- `syn::LifetimeParam`. -/
structure LtParam where
  lt : Lt
  bounds : List Lt := []
  deriving DecidableEq

/-- `syn::TypeParam`.  Attributes are strings. -/
structure TyParam where
  id : Ident
  bounds : List Bound := []
  dflt : Option Ty := none
  attrs : List String := []
  deriving DecidableEq

/-- `syn::GenericParam`. -/
inductive GParam
  | lt (p : LtParam)
  | ty (p : TyParam)
  | const (id : Ident) (t : Ty)
  deriving DecidableEq

/-- `syn::WherePredicate`; `lts` are the bound lifetimes `for<..>`. -/
inductive WPred
  | ty (lts : Option (List LtParam)) (bounded : Ty) (bounds : List Bound)
  | lt (l : Lt) (bounds : List Lt)
  deriving DecidableEq

/-- `syn::Generics`; `angle` says whether there is a `<`. -/
structure Generics where
  angle : Bool := false
  params : List GParam := []
  preds : Option (List WPred) := none
  deriving DecidableEq

/-- `syn::Pat`, as far as the macros tell them apart. -/
inductive Pat
  | ident (byRef isMut : Bool) (id : Ident) (sub : Bool)
  | wild
  | other (tokens : String)
  deriving DecidableEq

/-- `syn::FnArg`.  `ref` is the `reference` of a receiver, with its lifetime; `colon` tells whether
its type `t` was written out (`self: T`). -/
inductive FnArg
  | receiver (ref : Option (Option Lt)) (isMut : Bool) (colon : Bool) (t : Ty)
  | typed (attrs : List String) (pat : Pat) (t : Ty)
  deriving DecidableEq

end Mockall.Derive
