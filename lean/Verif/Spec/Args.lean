import Verif.Derive.Args

/-! # Closures among the parameters of a function -/

namespace Mockall.Spec

open Derive

/-- `m` is `l` without the elements for which `P`: in order, nothing else missing, nothing added. -/
inductive Minus {α : Type} (P : α → Prop) : List α → List α → Prop
  | nil : Minus P [] []
  | skip {a l m} : P a → Minus P l m → Minus P (a :: l) m
  | keep {a l m} : ¬ P a → Minus P l m → Minus P (a :: l) (a :: m)

/-- Two lists of the same length, related element by element. -/
inductive Pointwise {α β : Type} (R : α → β → Prop) : List α → List β → Prop
  | nil : Pointwise R [] []
  | cons {a b l m} : R a b → Pointwise R l m → Pointwise R (a :: l) (b :: m)

/-- A bound by one of the closure traits: `Fn(..)`, `a::FnMut(..)`, ... -/
inductive FnBound : Bound → Prop
  | mk (maybe lts lead init id args) (h : id = "Fn" ∨ id = "FnMut" ∨ id = "FnOnce") :
    FnBound (.trait maybe lts lead (init ++ [.mk id args]))

/-- The type is the name `n` (of a parameter, so no keyword). -/
inductive IsName (n : Ident) : Ty → Prop
  | name (h : n ≠ "Self" ∧ n ≠ "self" ∧ n ≠ "super" ∧ n ≠ "crate") : IsName n (.name n)
  | group {t} (h : IsName n t) : IsName n (.group t)

/-- A list of bounds that `g` puts on the parameter `n`, in the list of parameters or in the where
clause. -/
inductive BoundsOf (g : Generics) (n : Ident) : List Bound → Prop
  | param (p : TyParam) (h : .ty p ∈ g.params) (hn : p.id = n) : BoundsOf g n p.bounds
  | pred (ls t bs) (h : .ty ls t bs ∈ g.preds.getD []) (hn : IsName n t) : BoundsOf g n bs

/-- `n` is a closure parameter of `g`, and `bs` the list of bounds that says so. -/
def ClosureBy (g : Generics) (n : Ident) (bs : List Bound) : Prop :=
  BoundsOf g n bs ∧ ∃ b ∈ bs, FnBound b

/-- `n` is a closure parameter of `g`. -/
def Closure (g : Generics) (n : Ident) : Prop := ∃ bs, ClosureBy g n bs

/-- The parameter is a closure parameter. -/
def ClosureParam (g : Generics) (p : GParam) : Prop := ∃ q, p = .ty q ∧ Closure g q.id

/-- The predicate is about a closure parameter. -/
def ClosurePred (g : Generics) (w : WPred) : Prop :=
  ∃ ls t bs n, w = .ty ls t bs ∧ IsName n t ∧ Closure g n

/-- A plain binding `x` or `mut x`, and the same without `mut`. -/
inductive SameBinding : Pat → Pat → Prop
  | mk (m i) : SameBinding (.ident false m i false) (.ident false false i false)

/-- How the type of an argument changes: `F` to `Box<dyn ..>`, nothing else. -/
inductive Boxes (g : Generics) : Ty → Ty → Prop
  | closure (n bs) (h : ClosureBy g n bs) :
    Boxes g (.name n) (.path false [.mk "Box" (.angle [.ty (.traitObject bs)])])
  | other (t) (h : ∀ n, Closure g n → t ≠ .name n) : Boxes g t t

/-- How an argument changes. -/
inductive ArgBoxes (g : Generics) : FnArg → FnArg → Prop
  | receiver (r m c t) : ArgBoxes g (.receiver r m c t) (.receiver r m c t)
  | typed (a p p' t t') (hp : SameBinding p p') (ht : Boxes g t t') :
    ArgBoxes g (.typed a p t) (.typed [] p' t')

/-- What is passed on for an argument. -/
inductive Passes (g : Generics) : FnArg → CallArg → Prop
  | closure (a p p' n) (hp : SameBinding p p') (h : Closure g n) :
    Passes g (.typed a p (.name n)) (.boxed p')
  | other (a p p' t) (hp : SameBinding p p') (h : ∀ n, Closure g n → t ≠ .name n) :
    Passes g (.typed a p t) (.plain p')

/-! For programs that are accepted: -/

/-- Is the bound one by a closure trait? -/
def isFn : Bound → Bool
  | .trait _ _ _ segs => match segs.reverse with
    | .mk id _ :: _ => id == "Fn" || id == "FnMut" || id == "FnOnce"
    | [] => false
  | _ => false

/-- The parameter a type is the name of. -/
def nameOf : Ty → Option Ident
  | .path false [.mk i .none] =>
    if i = "Self" ∨ i = "self" ∨ i = "super" ∨ i = "crate" then none else some i
  | .group t => nameOf t
  | _ => none

/-- The parameter, once for each of its closure bounds. -/
def perFn (n : Ident) (bs : List Bound) : List Ident := (bs.filter isFn).map fun _ => n

/-- The closure parameters, once for each closure bound. -/
def closures (g : Generics) : List Ident :=
  (g.params.flatMap fun | .ty p => perFn p.id p.bounds | _ => []) ++
  ((g.preds.getD []).flatMap fun
    | .ty _ t bs => match nameOf t with
      | some n => perFn n bs
      | none => []
    | _ => [])

/-- The path of a trait is not empty; the parser makes sure of that. -/
def ProperBound : Bound → Prop
  | .trait _ _ _ segs => segs ≠ []
  | _ => True

/-- All bounds in the generics are proper. -/
def ProperBounds (g : Generics) : Prop :=
  (∀ p, .ty p ∈ g.params → ∀ b ∈ p.bounds, ProperBound b) ∧
  ∀ ls t bs, .ty ls t bs ∈ g.preds.getD [] → ∀ b ∈ bs, ProperBound b

/-- `self`, or an argument with a name. -/
def PlainArg : FnArg → Prop
  | .receiver _ _ _ _ => True
  | .typed _ p _ => ∃ m i, p = .ident false m i false

/-- An argument other than `self`. -/
def IsValueArg : FnArg → Prop
  | .receiver _ _ _ _ => False
  | .typed _ (.ident _ _ i _) _ => i ≠ "self"
  | .typed _ _ _ => True

end Mockall.Spec
