import Verif.Spec.Build

/-! # Trait objects in place of generic arguments -/

namespace Mockall.Spec

open Derive

/-- `(dyn bs)`. -/
def dynTy (bs : List Bound) : Ty := .paren (.traitObject bs)

/-- The segments of the path of a trait. -/
def boundSegs : Bound → List Seg
  | .trait _ _ _ segs => segs
  | _ => []

/-- A bound by `FnMut`, however it is spelled. -/
def FnMutBound (b : Bound) : Prop := ∃ init args, boundSegs b = init ++ [.mk "FnMut" args]

/-- If there is `FnMut` among the bounds it is the first one, and written without a path. -/
def FnMutPlain (bs : List Bound) : Prop :=
  ∀ b ∈ bs, ∀ s ∈ boundSegs b, s.id = "FnMut" → boundSegs b = [s] ∧ bs.head? = some b

/-- `Trait`, not `?Trait`. -/
def NotMaybe : Bound → Prop
  | .trait m _ _ _ => m = false
  | _ => True

/-- A bound that is a trait. -/
def IsTrait : Bound → Prop
  | .trait _ _ _ _ => True
  | _ => False

/-- `n` is known to have the bound `b`. -/
def Has (g : Generics) (n : Ident) (b : Bound) : Prop := ∃ bs, BoundsOf g n bs ∧ b ∈ bs

/-- The type of an expression, given that of the variable in it. -/
def callTy : CallArg → Ty → Ty
  | .plain _, t => t
  | .boxed _, t => .path false [.mk "Box" (.angle [.ty t])]
  | .ref m _, t => .ref none m t
  | .slice _ bs, _ => .ref none false (.path false [.mk "Vec" (.angle [.ty (.ref none false (dynTy bs))])])

/-- The variable an expression is made from. -/
def callVar : CallArg → Pat
  | .plain p => p
  | .boxed p => p
  | .ref _ p => p
  | .slice p _ => p

/-- Which expressions can be passed for a parameter of type `t'`: those of type `t'`; references to a type of
which the bounds of the trait object are known; and `&Vec<T>` for `&[T]`. -/
inductive Fits (g : Generics) : Ty → Ty → Prop
  | same (t) : Fits g t t
  | unsize (lt m n bs) (h : ∀ b ∈ bs, Has g n b ∧ NotMaybe b) :
    Fits g (.ref lt m (.name n)) (.ref none m (dynTy bs))
  | vec (t) : Fits g (.ref none false (.path false [.mk "Vec" (.angle [.ty t])])) (.ref none false (.slice t))

/-- What the type of an argument becomes, if `B` gives the bounds of the parameters that have some. -/
inductive Concretizes (B : Ident → Option (List Bound)) : Ty → Ty → Prop
  /-- `T` to `&dyn B`. -/
  | value (n bs) (h : B n = some bs) (hm : ∀ b ∈ bs, ¬ FnMutBound b) :
    Concretizes B (.name n) (.ref none false (dynTy bs))
  /-- `F` to `&mut dyn FnMut(..)`. -/
  | fnMut (n bs) (h : B n = some bs) (hm : ∃ b ∈ bs, FnMutBound b) :
    Concretizes B (.name n) (.ref none true (dynTy bs))
  /-- `&T` to `&dyn B`. -/
  | shared (n bs) (h : B n = some bs) : Concretizes B (.ref none false (.name n)) (.ref none false (dynTy bs))
  /-- `&mut T` to `&mut dyn B`. -/
  | exclusive (n bs) (h : B n = some bs) : Concretizes B (.ref none true (.name n)) (.ref none true (dynTy bs))
  /-- `&[T]` to `&[&dyn B]`. -/
  | slice (n bs) (h : B n = some bs) :
    Concretizes B (.ref none false (.slice (.name n))) (.ref none false (.slice (.ref none false (dynTy bs))))
  /-- All else stays. -/
  | other (t) (h : ∀ n bs, B n = some bs → t ≠ .name n ∧ (∀ m, t ≠ .ref none m (.name n)) ∧
      t ≠ .ref none false (.slice (.name n))) : Concretizes B t t

/-- How the argument `a` shows up in the mock and in the call: `c` is the argument of the expectation, `e` what
is passed for it. -/
inductive ArgConcrete (g : Generics) (B : Ident → Option (List Bound)) (levels : Nat) :
    FnArg → BArg × CallArg → Prop
  | mk (as p t t') (c : BArg) (e : CallArg) (hn : SameBinding p c.name) (hv : callVar e = c.name)
    (hb : Concretizes B t t') (he : Fits g (callTy e t) t')
    (ht : MeansSame levels t' c.ty) (hr : c.refPredTy = .ref none false c.predTy)
    (hc : Coerces (exprTy c.byRef c.ty) c.refPredTy)
    (hp : (∃ lt m, c.ty = .ref lt m c.predTy) ∨ (c.ty = c.predTy ∧ ∀ lt m e, c.ty ≠ .ref lt m e)) :
    ArgConcrete g B levels (.typed as p t) (c, e)

/-- How an argument changes in the signature of the mock method: `mut` is added to an `F: FnMut(..)`. -/
inductive SigArg (B : Ident → Option (List Bound)) : FnArg → FnArg → Prop
  | same (a) (h : ∀ as p n bs, a = .typed as p (.name n) → B n = some bs → ∀ b ∈ bs, ¬ FnMutBound b) : SigArg B a a
  | fnMut (as r m i s t n bs) (h : B n = some bs) (hm : ∃ b ∈ bs, FnMutBound b)
    (ht : t = .name n ∨ (∃ m, t = .ref none m (.name n)) ∨ t = .ref none false (.slice (.name n))) :
    SigArg B (.typed as (.ident r m i s) t) (.typed as (.ident r true i s) t)

end Mockall.Spec
