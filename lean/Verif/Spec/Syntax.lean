import Verif.Derive.Syntax

/-! # Vocabulary for stating properties of code transformations

Total traversals of syntax trees, written without regard to how the macros traverse them: every
position of a type is visited. -/

namespace Mockall.Spec

open Derive

/-- A change of all lifetimes and all path segments. -/
structure Rewrite where
  lt : Lt → Lt := id
  seg : Ident → Args → Seg := .mk

/-! `rewrite R t` applies `R` at every position of `t` (except the binders of `for<..>`). -/

mutual
def rewrite (R : Rewrite) : Ty → Ty
  | .array e l => .array (rewrite R e) l
  | .bareFn l i o => .bareFn l (rewrites R i) (rewriteRet R o)
  | .group e => .group (rewrite R e)
  | .implTrait b => .implTrait (rewriteBounds R b)
  | .infer => .infer
  | .mac s => .mac s
  | .never => .never
  | .paren e => .paren (rewrite R e)
  | .path l s => .path l (rewriteSegs R s)
  | .qpath q p l s => .qpath (rewrite R q) p l (rewriteSegs R s)
  | .ptr m e => .ptr m (rewrite R e)
  | .ref l m e => .ref (l.map R.lt) m (rewrite R e)
  | .slice e => .slice (rewrite R e)
  | .traitObject b => .traitObject (rewriteBounds R b)
  | .tuple l => .tuple (rewrites R l)
  | .verbatim s => .verbatim s
def rewriteRet (R : Rewrite) : Ret → Ret
  | .unit => .unit
  | .ty t => .ty (rewrite R t)
def rewriteSeg (R : Rewrite) : Seg → Seg
  | .mk i a => R.seg i (rewriteArgs R a)
def rewriteArgs (R : Rewrite) : Args → Args
  | .none => .none
  | .angle l => .angle (rewriteGArgs R l)
  | .paren i o => .paren (rewrites R i) (rewriteRet R o)
def rewriteGArg (R : Rewrite) : GArg → GArg
  | .lt l => .lt (R.lt l)
  | .ty t => .ty (rewrite R t)
  | .const e => .const e
  | .assocTy i t => .assocTy i (rewrite R t)
  | .assocConst i e => .assocConst i e
  | .constraint i b => .constraint i (rewriteBounds R b)
def rewriteBound (R : Rewrite) : Bound → Bound
  | .trait m l c s => .trait m l c (rewriteSegs R s)
  | .lt l => .lt (R.lt l)
  | .other s => .other s
def rewrites (R : Rewrite) : List Ty → List Ty
  | [] => []
  | t :: l => rewrite R t :: rewrites R l
def rewriteSegs (R : Rewrite) : List Seg → List Seg
  | [] => []
  | t :: l => rewriteSeg R t :: rewriteSegs R l
def rewriteGArgs (R : Rewrite) : List GArg → List GArg
  | [] => []
  | t :: l => rewriteGArg R t :: rewriteGArgs R l
def rewriteBounds (R : Rewrite) : List Bound → List Bound
  | [] => []
  | t :: l => rewriteBound R t :: rewriteBounds R l
end

/-- Syntactic forms that some of the macros' functions do not support: a macro call or unparsed
tokens, `impl Trait`, parenthesised arguments as in `Fn(A) -> B`, `fn(A) -> B`, and
`<A as B>::C`. -/
inductive Form
  | opaque
  | implTrait
  | fnArgs
  | bareFn
  | qself
  deriving DecidableEq

/-- What occurs in a type: a lifetime, a path segment (with or without arguments), or one of the
forms above. -/
inductive Leaf
  | lt (l : Lt)
  | seg (i : Ident) (bare : Bool)
  | form (f : Form)
  deriving DecidableEq

/-- All leaves in the list satisfy `P`. -/
def All (P : Leaf → Prop) (l : List Leaf) : Prop := ∀ x ∈ l, P x

theorem All.left {P : Leaf → Prop} {l m : List Leaf} (h : All P (l ++ m)) : All P l :=
  fun x hx => h x (List.mem_append_left _ hx)

theorem All.right {P : Leaf → Prop} {l m : List Leaf} (h : All P (l ++ m)) : All P m :=
  fun x hx => h x (List.mem_append_right _ hx)

theorem All.tail {P : Leaf → Prop} {x : Leaf} {l : List Leaf} (h : All P (x :: l)) : All P l :=
  fun x hx => h x (List.mem_cons_of_mem _ hx)

theorem All.head {P : Leaf → Prop} {x : Leaf} {l : List Leaf} (h : All P (x :: l)) : P x :=
  h x List.mem_cons_self

/-- A path segment has arguments or not. -/
def bare : Args → Bool
  | .none => true
  | _ => false

/-! `leaves t` lists everything that occurs anywhere in `t`. -/

mutual
def leaves : Ty → List Leaf
  | .array e _ => leaves e
  | .bareFn _ i o => .form .bareFn :: (leavesTys i ++ leavesRet o)
  | .group e => leaves e
  | .implTrait b => .form .implTrait :: leavesBounds b
  | .infer => []
  | .mac _ => [.form .opaque]
  | .never => []
  | .paren e => leaves e
  | .path _ s => leavesSegs s
  | .qpath q _ _ s => .form .qself :: (leaves q ++ leavesSegs s)
  | .ptr _ e => leaves e
  | .ref l _ e => (l.toList.map .lt) ++ leaves e
  | .slice e => leaves e
  | .traitObject b => leavesBounds b
  | .tuple l => leavesTys l
  | .verbatim _ => [.form .opaque]
def leavesRet : Ret → List Leaf
  | .unit => []
  | .ty t => leaves t
def leavesSeg : Seg → List Leaf
  | .mk i a => .seg i (bare a) :: leavesArgs a
def leavesArgs : Args → List Leaf
  | .none => []
  | .angle l => leavesGArgs l
  | .paren i o => .form .fnArgs :: (leavesTys i ++ leavesRet o)
def leavesGArg : GArg → List Leaf
  | .lt l => [.lt l]
  | .ty t => leaves t
  | .const _ => []
  | .assocTy _ t => leaves t
  | .assocConst _ _ => []
  | .constraint _ b => leavesBounds b
def leavesBound : Bound → List Leaf
  | .trait _ _ _ s => leavesSegs s
  | .lt l => [.lt l]
  | .other _ => []
def leavesTys : List Ty → List Leaf
  | [] => []
  | t :: l => leaves t ++ leavesTys l
def leavesSegs : List Seg → List Leaf
  | [] => []
  | t :: l => leavesSeg t ++ leavesSegs l
def leavesGArgs : List GArg → List Leaf
  | [] => []
  | t :: l => leavesGArg t ++ leavesGArgs l
def leavesBounds : List Bound → List Leaf
  | [] => []
  | t :: l => leavesBound t ++ leavesBounds l
end

/-- `R` leaves the leaf alone. -/
def Rewrite.Fixes (R : Rewrite) : Leaf → Prop
  | .lt l => R.lt l = l
  | .seg i b => ∀ a, bare a = b → R.seg i a = .mk i a
  | .form _ => True

theorem bare_rewriteArgs (R : Rewrite) (a : Args) : bare (rewriteArgs R a) = bare a := by
  cases a <;> rfl

mutual
/-- A rewrite that fixes all that occurs in a type leaves the type alone. -/
theorem rewrite_id (R : Rewrite) : ∀ t : Ty, (∀ x ∈ leaves t, R.Fixes x) → rewrite R t = t
  | .array e _, h => by rw [rewrite, rewrite_id R e h]
  | .bareFn _ i o, h => by
    rw [rewrite, rewrites_id R i fun x hx => h x (by simp [leaves, hx]),
      rewriteRet_id R o fun x hx => h x (by simp [leaves, hx])]
  | .group e, h => by rw [rewrite, rewrite_id R e h]
  | .implTrait b, h => by
    rw [rewrite, rewriteBounds_id R b fun x hx => h x (by simp [leaves, hx])]
  | .infer, _ => rfl
  | .mac _, _ => rfl
  | .never, _ => rfl
  | .paren e, h => by rw [rewrite, rewrite_id R e h]
  | .path _ s, h => by rw [rewrite, rewriteSegs_id R s h]
  | .qpath q _ _ s, h => by
    rw [rewrite, rewrite_id R q fun x hx => h x (by simp [leaves, hx]),
      rewriteSegs_id R s fun x hx => h x (by simp [leaves, hx])]
  | .ptr _ e, h => by rw [rewrite, rewrite_id R e h]
  | .ref l _ e, h => by
    rw [rewrite, rewrite_id R e fun x hx => h x (by simp [leaves, hx])]
    cases l with
    | none => rfl
    | some l => have := h (.lt l) (by simp [leaves]); simp only [Rewrite.Fixes] at this; simp [this]
  | .slice e, h => by rw [rewrite, rewrite_id R e h]
  | .traitObject b, h => by rw [rewrite, rewriteBounds_id R b h]
  | .tuple l, h => by rw [rewrite, rewrites_id R l h]
  | .verbatim _, _ => rfl
theorem rewriteRet_id (R : Rewrite) : ∀ t : Ret, (∀ x ∈ leavesRet t, R.Fixes x) → rewriteRet R t = t
  | .unit, _ => rfl
  | .ty t, h => by rw [rewriteRet, rewrite_id R t h]
theorem rewriteSeg_id (R : Rewrite) : ∀ t : Seg, (∀ x ∈ leavesSeg t, R.Fixes x) → rewriteSeg R t = t
  | .mk i a, h => by
    rw [rewriteSeg, rewriteArgs_id R a fun x hx => h x (by simp [leavesSeg, hx])]
    exact h (.seg i (bare a)) (by simp [leavesSeg]) a rfl
theorem rewriteArgs_id (R : Rewrite) : ∀ t : Args, (∀ x ∈ leavesArgs t, R.Fixes x) → rewriteArgs R t = t
  | .none, _ => rfl
  | .angle l, h => by rw [rewriteArgs, rewriteGArgs_id R l h]
  | .paren i o, h => by
    rw [rewriteArgs, rewrites_id R i fun x hx => h x (by simp [leavesArgs, hx]),
      rewriteRet_id R o fun x hx => h x (by simp [leavesArgs, hx])]
theorem rewriteGArg_id (R : Rewrite) : ∀ t : GArg, (∀ x ∈ leavesGArg t, R.Fixes x) → rewriteGArg R t = t
  | .lt l, h => by
    have := h (.lt l) (by simp [leavesGArg]); simp only [Rewrite.Fixes] at this; rw [rewriteGArg, this]
  | .ty t, h => by rw [rewriteGArg, rewrite_id R t h]
  | .const _, _ => rfl
  | .assocTy _ t, h => by rw [rewriteGArg, rewrite_id R t h]
  | .assocConst _ _, _ => rfl
  | .constraint _ b, h => by rw [rewriteGArg, rewriteBounds_id R b h]
theorem rewriteBound_id (R : Rewrite) : ∀ t : Bound, (∀ x ∈ leavesBound t, R.Fixes x) → rewriteBound R t = t
  | .trait _ _ _ s, h => by rw [rewriteBound, rewriteSegs_id R s h]
  | .lt l, h => by
    have := h (.lt l) (by simp [leavesBound]); simp only [Rewrite.Fixes] at this; rw [rewriteBound, this]
  | .other _, _ => rfl
theorem rewrites_id (R : Rewrite) : ∀ t : List Ty, (∀ x ∈ leavesTys t, R.Fixes x) → rewrites R t = t
  | [], _ => rfl
  | t :: l, h => by
    rw [rewrites, rewrite_id R t fun x hx => h x (by simp [leavesTys, hx]),
      rewrites_id R l fun x hx => h x (by simp [leavesTys, hx])]
theorem rewriteSegs_id (R : Rewrite) : ∀ t : List Seg, (∀ x ∈ leavesSegs t, R.Fixes x) → rewriteSegs R t = t
  | [], _ => rfl
  | t :: l, h => by
    rw [rewriteSegs, rewriteSeg_id R t fun x hx => h x (by simp [leavesSegs, hx]),
      rewriteSegs_id R l fun x hx => h x (by simp [leavesSegs, hx])]
theorem rewriteGArgs_id (R : Rewrite) : ∀ t : List GArg, (∀ x ∈ leavesGArgs t, R.Fixes x) → rewriteGArgs R t = t
  | [], _ => rfl
  | t :: l, h => by
    rw [rewriteGArgs, rewriteGArg_id R t fun x hx => h x (by simp [leavesGArgs, hx]),
      rewriteGArgs_id R l fun x hx => h x (by simp [leavesGArgs, hx])]
theorem rewriteBounds_id (R : Rewrite) : ∀ t : List Bound, (∀ x ∈ leavesBounds t, R.Fixes x) → rewriteBounds R t = t
  | [], _ => rfl
  | t :: l, h => by
    rw [rewriteBounds, rewriteBound_id R t fun x hx => h x (by simp [leavesBounds, hx]),
      rewriteBounds_id R l fun x hx => h x (by simp [leavesBounds, hx])]
end


/-- What a rewrite can leave in a type. -/
structure Rewrite.Yields (R : Rewrite) (P : Leaf → Prop) : Prop where
  lt : ∀ l, P (.lt (R.lt l))
  seg : ∀ i a, (∀ x ∈ leavesArgs a, P x) → ∀ x ∈ leavesSeg (R.seg i a), P x
  form : ∀ f, P (.form f)

mutual
/-- Everything in a rewritten type is what the rewrite yields. -/
theorem leaves_rewrite {R : Rewrite} {P : Leaf → Prop} (hR : R.Yields P) :
    ∀ t : Ty, ∀ x ∈ leaves (rewrite R t), P x
  | .array e _, x, hx => leaves_rewrite hR e x (by simpa [rewrite, leaves] using hx)
  | .bareFn _ i o, x, hx => by
    simp only [rewrite, leaves, List.mem_cons, List.mem_append] at hx
    rcases hx with rfl | hx | hx
    · exact hR.form _
    · exact leaves_rewrites hR i x hx
    · exact leaves_rewriteRet hR o x hx
  | .group e, x, hx => leaves_rewrite hR e x (by simpa [rewrite, leaves] using hx)
  | .implTrait b, x, hx => by
    simp only [rewrite, leaves, List.mem_cons] at hx
    rcases hx with rfl | hx
    · exact hR.form _
    · exact leaves_rewriteBounds hR b x hx
  | .infer, x, hx => by simp [rewrite, leaves] at hx
  | .mac _, x, hx => by
    simp only [rewrite, leaves, List.mem_singleton] at hx; subst hx; exact hR.form _
  | .never, x, hx => by simp [rewrite, leaves] at hx
  | .paren e, x, hx => leaves_rewrite hR e x (by simpa [rewrite, leaves] using hx)
  | .path _ s, x, hx => leaves_rewriteSegs hR s x (by simpa [rewrite, leaves] using hx)
  | .qpath q _ _ s, x, hx => by
    simp only [rewrite, leaves, List.mem_cons, List.mem_append] at hx
    rcases hx with rfl | hx | hx
    · exact hR.form _
    · exact leaves_rewrite hR q x hx
    · exact leaves_rewriteSegs hR s x hx
  | .ptr _ e, x, hx => leaves_rewrite hR e x (by simpa [rewrite, leaves] using hx)
  | .ref l _ e, x, hx => by
    simp only [rewrite, leaves, List.mem_append] at hx
    rcases hx with hx | hx
    · cases l with
      | none => simp at hx
      | some l => simp at hx; subst hx; exact hR.lt l
    · exact leaves_rewrite hR e x hx
  | .slice e, x, hx => leaves_rewrite hR e x (by simpa [rewrite, leaves] using hx)
  | .traitObject b, x, hx => leaves_rewriteBounds hR b x (by simpa [rewrite, leaves] using hx)
  | .tuple l, x, hx => leaves_rewrites hR l x (by simpa [rewrite, leaves] using hx)
  | .verbatim _, x, hx => by
    simp only [rewrite, leaves, List.mem_singleton] at hx; subst hx; exact hR.form _
theorem leaves_rewriteRet {R : Rewrite} {P : Leaf → Prop} (hR : R.Yields P) :
    ∀ t : Ret, ∀ x ∈ leavesRet (rewriteRet R t), P x
  | .unit, x, hx => by simp [rewriteRet, leavesRet] at hx
  | .ty t, x, hx => leaves_rewrite hR t x hx
theorem leaves_rewriteSeg {R : Rewrite} {P : Leaf → Prop} (hR : R.Yields P) :
    ∀ t : Seg, ∀ x ∈ leavesSeg (rewriteSeg R t), P x
  | .mk i a, x, hx => hR.seg i _ (leaves_rewriteArgs hR a) x hx
theorem leaves_rewriteArgs {R : Rewrite} {P : Leaf → Prop} (hR : R.Yields P) :
    ∀ t : Args, ∀ x ∈ leavesArgs (rewriteArgs R t), P x
  | .none, x, hx => by simp [rewriteArgs, leavesArgs] at hx
  | .angle l, x, hx => leaves_rewriteGArgs hR l x hx
  | .paren i o, x, hx => by
    simp only [rewriteArgs, leavesArgs, List.mem_cons, List.mem_append] at hx
    rcases hx with rfl | hx | hx
    · exact hR.form _
    · exact leaves_rewrites hR i x hx
    · exact leaves_rewriteRet hR o x hx
theorem leaves_rewriteGArg {R : Rewrite} {P : Leaf → Prop} (hR : R.Yields P) :
    ∀ t : GArg, ∀ x ∈ leavesGArg (rewriteGArg R t), P x
  | .lt l, x, hx => by
    simp only [rewriteGArg, leavesGArg, List.mem_singleton] at hx; subst hx; exact hR.lt l
  | .ty t, x, hx => leaves_rewrite hR t x hx
  | .const _, x, hx => by simp [rewriteGArg, leavesGArg] at hx
  | .assocTy _ t, x, hx => leaves_rewrite hR t x hx
  | .assocConst _ _, x, hx => by simp [rewriteGArg, leavesGArg] at hx
  | .constraint _ b, x, hx => leaves_rewriteBounds hR b x hx
theorem leaves_rewriteBound {R : Rewrite} {P : Leaf → Prop} (hR : R.Yields P) :
    ∀ t : Bound, ∀ x ∈ leavesBound (rewriteBound R t), P x
  | .trait _ _ _ s, x, hx => leaves_rewriteSegs hR s x hx
  | .lt l, x, hx => by
    simp only [rewriteBound, leavesBound, List.mem_singleton] at hx; subst hx; exact hR.lt l
  | .other _, x, hx => by simp [rewriteBound, leavesBound] at hx
theorem leaves_rewrites {R : Rewrite} {P : Leaf → Prop} (hR : R.Yields P) :
    ∀ t : List Ty, ∀ x ∈ leavesTys (rewrites R t), P x
  | [], x, hx => by simp [rewrites, leavesTys] at hx
  | t :: l, x, hx => by
    simp only [rewrites, leavesTys, List.mem_append] at hx
    rcases hx with hx | hx
    · exact leaves_rewrite hR t x hx
    · exact leaves_rewrites hR l x hx
theorem leaves_rewriteSegs {R : Rewrite} {P : Leaf → Prop} (hR : R.Yields P) :
    ∀ t : List Seg, ∀ x ∈ leavesSegs (rewriteSegs R t), P x
  | [], x, hx => by simp [rewriteSegs, leavesSegs] at hx
  | t :: l, x, hx => by
    simp only [rewriteSegs, leavesSegs, List.mem_append] at hx
    rcases hx with hx | hx
    · exact leaves_rewriteSeg hR t x hx
    · exact leaves_rewriteSegs hR l x hx
theorem leaves_rewriteGArgs {R : Rewrite} {P : Leaf → Prop} (hR : R.Yields P) :
    ∀ t : List GArg, ∀ x ∈ leavesGArgs (rewriteGArgs R t), P x
  | [], x, hx => by simp [rewriteGArgs, leavesGArgs] at hx
  | t :: l, x, hx => by
    simp only [rewriteGArgs, leavesGArgs, List.mem_append] at hx
    rcases hx with hx | hx
    · exact leaves_rewriteGArg hR t x hx
    · exact leaves_rewriteGArgs hR l x hx
theorem leaves_rewriteBounds {R : Rewrite} {P : Leaf → Prop} (hR : R.Yields P) :
    ∀ t : List Bound, ∀ x ∈ leavesBounds (rewriteBounds R t), P x
  | [], x, hx => by simp [rewriteBounds, leavesBounds] at hx
  | t :: l, x, hx => by
    simp only [rewriteBounds, leavesBounds, List.mem_append] at hx
    rcases hx with hx | hx
    · exact leaves_rewriteBound hR t x hx
    · exact leaves_rewriteBounds hR l x hx
end

/-! ## Blind spots -/

/-- Kinds of positions inside a type which a transformation does not look at. -/
structure Blind where
  /-- inside `fn(A) -> B` -/
  bareFn : Bool := false
  /-- inside `impl Trait` -/
  implTrait : Bool := false
  /-- inside the parentheses of `Fn(A) -> B` -/
  fnArgs : Bool := false
  /-- inside `B` in `Iterator<Item: B>` -/
  constraint : Bool := false
  /-- inside the type arguments and associated types `A<T, U = V>` of a path (not its lifetime
  arguments) -/
  tyArgs : Bool := false
  /-- inside the arguments of segments of a path other than the last -/
  innerArgs : Bool := false

/-! `unseen B t` lists what occurs in `t` in the blind spots `B`. -/

mutual
def unseen (B : Blind) : Ty → List Leaf
  | .array e _ => unseen B e
  | .bareFn _ i o => if B.bareFn then leavesTys i ++ leavesRet o else unseenTys B i ++ unseenRet B o
  | .group e => unseen B e
  | .implTrait b => if B.implTrait then leavesBounds b else unseenBounds B b
  | .infer => []
  | .mac _ => []
  | .never => []
  | .paren e => unseen B e
  | .path _ s => unseenSegs B s
  | .qpath q _ _ s => unseen B q ++ unseenSegs B s
  | .ptr _ e => unseen B e
  | .ref _ _ e => unseen B e
  | .slice e => unseen B e
  | .traitObject b => unseenBounds B b
  | .tuple l => unseenTys B l
  | .verbatim _ => []
def unseenRet (B : Blind) : Ret → List Leaf
  | .unit => []
  | .ty t => unseen B t
def unseenSeg (B : Blind) : Seg → List Leaf
  | .mk _ a => unseenArgs B a
def unseenArgs (B : Blind) : Args → List Leaf
  | .none => []
  | .angle l => unseenGArgs B l
  | .paren i o => if B.fnArgs then leavesTys i ++ leavesRet o else unseenTys B i ++ unseenRet B o
def unseenGArg (B : Blind) : GArg → List Leaf
  | .lt _ => []
  | .ty t => if B.tyArgs then leaves t else unseen B t
  | .const _ => []
  | .assocTy _ t => if B.tyArgs then leaves t else unseen B t
  | .assocConst _ _ => []
  | .constraint _ b => if B.constraint then leavesBounds b else unseenBounds B b
def unseenBound (B : Blind) : Bound → List Leaf
  | .trait _ _ _ s => unseenSegs B s
  | .lt _ => []
  | .other _ => []
def unseenTys (B : Blind) : List Ty → List Leaf
  | [] => []
  | t :: l => unseen B t ++ unseenTys B l
def unseenSegs (B : Blind) : List Seg → List Leaf
  | [] => []
  | [t] => unseenSeg B t
  | .mk i a :: t :: l =>
    (if B.innerArgs then leavesArgs a else unseenSeg B (.mk i a)) ++ unseenSegs B (t :: l)
def unseenGArgs (B : Blind) : List GArg → List Leaf
  | [] => []
  | t :: l => unseenGArg B t ++ unseenGArgs B l
def unseenBounds (B : Blind) : List Bound → List Leaf
  | [] => []
  | t :: l => unseenBound B t ++ unseenBounds B l
end

theorem unseenSegs_cons {B : Blind} (h : B.innerArgs = false) (t : Seg) (l : List Seg) :
    unseenSegs B (t :: l) = unseenSeg B t ++ unseenSegs B l := by
  cases t; cases l <;> simp [unseenSegs, unseenSeg, h]

end Mockall.Spec
