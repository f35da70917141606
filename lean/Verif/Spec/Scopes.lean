import Verif.Derive.Scopes
import Verif.Spec.Build

/-! # Which lifetimes and type parameters a piece of code uses and declares -/

namespace Mockall.Spec

open Derive

/-! `freeLts t` lists the lifetimes in `t` that are not bound by a `for<..>` in `t` itself. -/

mutual
def freeLts : Ty → List Lt
  | .array e _ => freeLts e
  | .bareFn ls i o => (freeLtsTys i ++ freeLtsRet o).filter (· ∉ ls)
  | .group e => freeLts e
  | .implTrait b => freeLtsBounds b
  | .infer => []
  | .mac _ => []
  | .never => []
  | .paren e => freeLts e
  | .path _ s => freeLtsSegs s
  | .qpath q _ _ s => freeLts q ++ freeLtsSegs s
  | .ptr _ e => freeLts e
  | .ref l _ e => l.toList ++ freeLts e
  | .slice e => freeLts e
  | .traitObject b => freeLtsBounds b
  | .tuple l => freeLtsTys l
  | .verbatim _ => []
def freeLtsRet : Ret → List Lt
  | .unit => []
  | .ty t => freeLts t
def freeLtsSeg : Seg → List Lt
  | .mk _ a => freeLtsArgs a
def freeLtsArgs : Args → List Lt
  | .none => []
  | .angle l => freeLtsGArgs l
  | .paren i o => freeLtsTys i ++ freeLtsRet o
def freeLtsGArg : GArg → List Lt
  | .lt l => [l]
  | .ty t => freeLts t
  | .const _ => []
  | .assocTy _ t => freeLts t
  | .assocConst _ _ => []
  | .constraint _ b => freeLtsBounds b
def freeLtsBound : Bound → List Lt
  | .trait _ ls _ s => (freeLtsSegs s).filter (· ∉ ls)
  | .lt l => [l]
  | .other _ => []
def freeLtsTys : List Ty → List Lt
  | [] => []
  | t :: l => freeLts t ++ freeLtsTys l
def freeLtsSegs : List Seg → List Lt
  | [] => []
  | t :: l => freeLtsSeg t ++ freeLtsSegs l
def freeLtsGArgs : List GArg → List Lt
  | [] => []
  | t :: l => freeLtsGArg t ++ freeLtsGArgs l
def freeLtsBounds : List Bound → List Lt
  | [] => []
  | t :: l => freeLtsBound t ++ freeLtsBounds l
end

/-- The lifetimes in what a parameter is declared with (`#ig` prints no defaults). -/
def freeLtsParam : GParam → List Lt
  | .lt p => p.bounds
  | .ty p => freeLtsBounds p.bounds
  | .const _ t => freeLts t

/-- The lifetimes in a predicate of a where clause. -/
def freeLtsPred : WPred → List Lt
  | .ty ls t b => (freeLts t ++ freeLtsBounds b).filter (· ∉ (ls.getD []).map LtParam.lt)
  | .lt l b => l :: b

/-- The lifetimes that are used in generics. -/
def boundLts (g : Generics) : List Lt :=
  g.params.flatMap freeLtsParam ++ (g.preds.getD []).flatMap freeLtsPred

/-- The lifetimes that are declared by generics. -/
def lifetimes (g : Generics) : List Lt := (ltParams g).map LtParam.lt

/-- `'static` and `'_` need no declaration. -/
def NamedLt (l : Lt) : Prop := l ≠ "static" ∧ l ≠ "_"

/-- The lifetimes that are used in a piece of code. -/
def Site.uses (s : Site) (l : Lt) : Prop :=
  (∃ g ∈ s.generics, l ∈ boundLts g) ∨ (∃ t ∈ s.tys, l ∈ freeLts t) ∨
  ((∃ t ∈ s.under, l ∈ freeLts t) ∧ l ∉ s.hrtb.map LtParam.lt)

/-- The lifetimes that are declared around a piece of code. -/
def Site.declares (s : Site) (l : Lt) : Prop := ∃ g ∈ s.outer ++ s.generics, l ∈ lifetimes g

/-- Every lifetime is declared, and the lifetimes of a `for<..>` have no bounds (Rust allows none there). -/
def Site.ltsOk (s : Site) : Prop :=
  (∀ l, NamedLt l → Site.uses s l → Site.declares s l) ∧ ∀ p ∈ s.hrtb, p.bounds = []

/-- This is so everywhere in the code generated for `f`, for a struct with generics `sg`. -/
def LifetimesDeclared (sg : Generics) (f : MockFn) : Prop := ∀ s ∈ f.sites sg, Site.ltsOk s

/-! ## Types -/

/-- The name is used in a list of leaves. -/
def MentionsName (n : Ident) (l : List Leaf) : Prop := ∃ b, .seg n b ∈ l

/-- What is in the declaration of a parameter. -/
def leavesParam : GParam → List Leaf
  | .lt _ => []
  | .ty p => leavesBounds p.bounds
  | .const _ t => leaves t

/-- What is in a predicate of a where clause. -/
def leavesPred : WPred → List Leaf
  | .ty _ t b => leaves t ++ leavesBounds b
  | .lt _ _ => []

/-- The name is used in generics, in a bound for example. -/
def BoundMentions (n : Ident) (g : Generics) : Prop :=
  (∃ p ∈ g.params, MentionsName n (leavesParam p)) ∨ ∃ w ∈ g.preds.getD [], MentionsName n (leavesPred w)

/-- The name is used in a piece of code. -/
def Site.mentions (s : Site) (n : Ident) : Prop :=
  (∃ g ∈ s.generics, BoundMentions n g) ∨ ∃ t ∈ s.tys ++ s.under, MentionsName n (leaves t)

/-- A piece of code is inside of a declaration of the type parameter. -/
def Site.declaresTy (s : Site) (n : Ident) : Prop := ∃ g ∈ s.outer ++ s.generics, HasTyParam g n

/-! ## The signature -/

/-- What is returned, or is behind the reference that is returned, if it is not `'static`. -/
def behind : Ret → Ty
  | .unit => .tuple []
  | .ty (.ref lt m e) => if lt = some "static" then .ref lt m e else e
  | .ty t => t

/-- What predicates see of an argument of type `t`: without a leading `&`. -/
def pointee : Ty → Ty
  | .ref _ _ e => e
  | t => t

/-- The types of the arguments. -/
def argTypes (l : List FnArg) : List Ty := l.filterMap fun | .typed _ _ t => some t | _ => none

/-- The lifetime is used by the type of an argument. -/
def ArgLt (l : List FnArg) (a : Lt) : Prop := ∃ t ∈ argTypes l, a ∈ freeLts t

/-- The lifetime is used by what predicates see of an argument. -/
def SeenLt (l : List FnArg) (a : Lt) : Prop := ∃ t ∈ argTypes l, a ∈ freeLts (pointee t)

/-- There is a `&'a self` or `&'a mut self`. -/
def SelfLt (l : List FnArg) (a : Lt) : Prop := ∃ m c t, .receiver (some (some a)) m c t ∈ l

/-- The lifetime is used by what is returned, or behind the reference that is. -/
def BehindLt (r : Ret) (a : Lt) : Prop := a ∈ freeLts (behind r)

/-! The lifetimes bound by `for<..>` inside of a type. -/

mutual
def binders : Ty → List Lt
  | .array e _ => binders e
  | .bareFn ls i o => ls ++ (bindersTys i ++ bindersRet o)
  | .group e => binders e
  | .implTrait b => bindersBounds b
  | .infer => []
  | .mac _ => []
  | .never => []
  | .paren e => binders e
  | .path _ s => bindersSegs s
  | .qpath q _ _ s => binders q ++ bindersSegs s
  | .ptr _ e => binders e
  | .ref _ _ e => binders e
  | .slice e => binders e
  | .traitObject b => bindersBounds b
  | .tuple l => bindersTys l
  | .verbatim _ => []
def bindersRet : Ret → List Lt
  | .unit => []
  | .ty t => binders t
def bindersSeg : Seg → List Lt
  | .mk _ a => bindersArgs a
def bindersArgs : Args → List Lt
  | .none => []
  | .angle l => bindersGArgs l
  | .paren i o => bindersTys i ++ bindersRet o
def bindersGArg : GArg → List Lt
  | .lt _ => []
  | .ty t => binders t
  | .const _ => []
  | .assocTy _ t => binders t
  | .assocConst _ _ => []
  | .constraint _ b => bindersBounds b
def bindersBound : Bound → List Lt
  | .trait _ ls _ s => ls ++ bindersSegs s
  | .lt _ => []
  | .other _ => []
def bindersTys : List Ty → List Lt
  | [] => []
  | t :: l => binders t ++ bindersTys l
def bindersSegs : List Seg → List Lt
  | [] => []
  | t :: l => bindersSeg t ++ bindersSegs l
def bindersGArgs : List GArg → List Lt
  | [] => []
  | t :: l => bindersGArg t ++ bindersGArgs l
def bindersBounds : List Bound → List Lt
  | [] => []
  | t :: l => bindersBound t ++ bindersBounds l
end

/-- The lifetime `a` is not used inside of the parentheses of `Fn(A) -> B` in `t`, and no `for<..>` in `t` declares
another one of this name (which Rust does not allow). -/
def PlainLt (a : Lt) (t : Ty) : Prop := .lt a ∉ unseen { fnArgs := true } t ∧ a ∉ binders t

/-- The same for a return type. -/
def PlainLtRet (a : Lt) : Ret → Prop
  | .unit => True
  | .ty t => PlainLt a t

/-- The lifetime is a parameter of the struct or of the function. -/
def IsLtParam (sg g : Generics) (a : Lt) : Prop := a ∈ lifetimes sg ∨ a ∈ lifetimes g

/-- The function has type parameters of its own (closures apart), or it has no parameters at all but a where clause. -/
def OwnGenerics (g : Generics) : Prop :=
  (∃ n, HasTyParam g n ∧ ¬ Closure g n) ∨
  ((∀ p ∈ g.params, ClosureParam g p) ∧ ∃ w ∈ g.preds.getD [], ¬ ClosurePred g w)

/-- The struct has type parameters, or no parameters at all but a where clause. -/
def StructGenerics (sg : Generics) : Prop := (∃ n, HasTyParam sg n) ∨ (sg.angle = false ∧ sg.preds ≠ none)

/-- The expectations of a function with arguments `l` are stored by the types of the call. -/
def StoredByType (sg g : Generics) (l : List FnArg) : Prop := OwnGenerics g ∨ (¬ IsMethod l ∧ StructGenerics sg)

/-- Functions without bounds on or by lifetimes, the lifetimes of which are found; `sg` are the generics of the
struct, `g` those of the function, and in `l` closures are boxed. -/
structure SimpleLts (sg g : Generics) (l : List FnArg) (r : Ret) : Prop where
  /-- the signature itself declares what it uses -/
  declared : ∀ a, NamedLt a → ArgLt l a ∨ a ∈ freeLtsRet r → IsLtParam sg g a
  /-- no lifetime is used inside of `Fn(..)` only -/
  plain : ∀ a, IsLtParam sg g a → (∀ t ∈ argTypes l, PlainLt a t) ∧ PlainLtRet a r
  /-- no bound is a lifetime or uses one -/
  unbound : ∀ a, NamedLt a → a ∉ boundLts sg ∧ a ∉ boundLts g
  /-- no lifetime has bounds -/
  free : ∀ p, p ∈ ltParams sg ∨ p ∈ ltParams g → p.bounds = []
  /-- the name that Mockall uses is not used -/
  fresh : ¬ IsLtParam sg g "__mockall_lt"

end Mockall.Spec
