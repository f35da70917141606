import Verif.Derive.Types
import Verif.Spec.Types
import Verif.Lemmas.Gen

/-! `deselfify` against the specification of replacing names. -/

namespace Mockall.Derive

open Spec

theorem selfRewrite_fixes {actual : Ident} {args : Args} {x : Leaf}
    (h : NotSelf x) : (selfRewrite actual args).Fixes x := by
  cases x with
  | lt l => rfl
  | form f => trivial
  | seg i b =>
    intro a _
    have : i ≠ "Self" := by rintro rfl; exact h b rfl
    simp [selfRewrite, this]

section
variable {actual : Ident} {g : Generics} {args : Args}

local notation "R" => selfRewrite actual args

mutual
theorem deselfify_rewrite (hg : ∀ a, selfArgs g = .ok a → a = args) : ∀ (t t' : Ty),
    (All NotSelf (unseen selfBlind t)) → deselfify actual g t = .ok t' → t' = rewrite R t
  | .array e l, t', k, h => by
    simp only [deselfify, gen_bind_ok, gen_pure_ok] at h
    obtain ⟨e', he, rfl⟩ := h
    rw [rewrite, deselfify_rewrite hg e e' k he]
  | .bareFn l i o, t', k, h => by
    simp only [deselfify, gen_pure_ok] at h
    subst h
    have k : All NotSelf (leavesTys i ++ leavesRet o) := k
    rw [rewrite, rewrites_id _ i fun x hx => selfRewrite_fixes (k.left x hx),
      rewriteRet_id _ o fun x hx => selfRewrite_fixes (k.right x hx)]
  | .group e, t', k, h => by
    simp only [deselfify, gen_bind_ok, gen_pure_ok] at h
    obtain ⟨e', he, rfl⟩ := h
    rw [rewrite, deselfify_rewrite hg e e' k he]
  | .implTrait b, t', k, h => by
    simp only [deselfify, gen_pure_ok] at h
    subst h
    rw [rewrite, rewriteBounds_id _ b fun x hx => selfRewrite_fixes (k x hx)]
  | .infer, t', k, h => by simp only [deselfify, gen_pure_ok] at h; subst h; rfl
  | .mac _, t', k, h => by simp [deselfify] at h
  | .never, t', k, h => by simp only [deselfify, gen_pure_ok] at h; subst h; rfl
  | .paren e, t', k, h => by
    simp only [deselfify, gen_bind_ok, gen_pure_ok] at h
    obtain ⟨e', he, rfl⟩ := h
    rw [rewrite, deselfify_rewrite hg e e' k he]
  | .path l s, t', k, h => by
    simp only [deselfify, gen_bind_ok, gen_pure_ok] at h
    obtain ⟨e', he, rfl⟩ := h
    rw [rewrite, deselfifySegs_rewrite hg s e' k he]
  | .qpath q p l s, t', k, h => by
    simp only [deselfify, gen_bind_ok, gen_pure_ok] at h
    obtain ⟨q', hq, e', he, rfl⟩ := h
    rw [rewrite, deselfify_rewrite hg q q' k.left hq,
      deselfifySegs_rewrite hg s e' k.right he]
  | .ptr m e, t', k, h => by
    simp only [deselfify, gen_bind_ok, gen_pure_ok] at h
    obtain ⟨e', he, rfl⟩ := h
    rw [rewrite, deselfify_rewrite hg e e' k he]
  | .ref l m e, t', k, h => by
    simp only [deselfify, gen_bind_ok, gen_pure_ok] at h
    obtain ⟨e', he, rfl⟩ := h
    rw [rewrite, deselfify_rewrite hg e e' k he]
    cases l <;> rfl
  | .slice e, t', k, h => by
    simp only [deselfify, gen_bind_ok, gen_pure_ok] at h
    obtain ⟨e', he, rfl⟩ := h
    rw [rewrite, deselfify_rewrite hg e e' k he]
  | .traitObject b, t', k, h => by
    simp only [deselfify, gen_bind_ok, gen_pure_ok] at h
    obtain ⟨e', he, rfl⟩ := h
    rw [rewrite, deselfifyBounds_rewrite hg b e' k he]
  | .tuple l, t', k, h => by
    simp only [deselfify, gen_bind_ok, gen_pure_ok] at h
    obtain ⟨e', he, rfl⟩ := h
    rw [rewrite, deselfifyTys_rewrite hg l e' k he]
  | .verbatim _, t', k, h => by simp [deselfify] at h
theorem deselfifySeg_rewrite (hg : ∀ a, selfArgs g = .ok a → a = args) : ∀ (t t' : Seg),
    (All NotSelf (unseenSeg selfBlind t)) → deselfifySeg actual g t = .ok t' → t' = rewriteSeg R t
  | .mk i a, t', k, h => by
    rw [deselfifySeg.eq_def] at h; dsimp only at h
    split at h
    · rename_i hi
      split at h
      · simp only [gen_bind_ok, gen_pure_ok] at h
        obtain ⟨a, ha, rfl⟩ := h
        rw [hg a ha]
        simp [rewriteSeg, selfRewrite, hi]
      · simp at h
    · rename_i hi
      simp only [gen_bind_ok, gen_pure_ok] at h
      obtain ⟨a', ha, rfl⟩ := h
      rw [rewriteSeg, deselfifyArgs_rewrite hg a a' k ha]
      simp [selfRewrite, hi]
theorem deselfifyArgs_rewrite (hg : ∀ a, selfArgs g = .ok a → a = args) : ∀ (t t' : Args),
    (All NotSelf (unseenArgs selfBlind t)) → deselfifyArgs actual g t = .ok t' → t' = rewriteArgs R t
  | .none, t', k, h => by simp only [deselfifyArgs, gen_pure_ok] at h; subst h; rfl
  | .angle l, t', k, h => by
    simp only [deselfifyArgs, gen_bind_ok, gen_pure_ok] at h
    obtain ⟨e', he, rfl⟩ := h
    rw [rewriteArgs, deselfifyGArgs_rewrite hg l e' k he]
  | .paren i o, t', k, h => by
    simp only [deselfifyArgs, gen_pure_ok] at h
    subst h
    have k : All NotSelf (leavesTys i ++ leavesRet o) := k
    rw [rewriteArgs, rewrites_id _ i fun x hx => selfRewrite_fixes (k.left x hx),
      rewriteRet_id _ o fun x hx => selfRewrite_fixes (k.right x hx)]
theorem deselfifyGArg_rewrite (hg : ∀ a, selfArgs g = .ok a → a = args) : ∀ (t t' : GArg),
    (All NotSelf (unseenGArg selfBlind t)) → deselfifyGArg actual g t = .ok t' → t' = rewriteGArg R t
  | .lt _, t', k, h => by simp only [deselfifyGArg, gen_pure_ok] at h; subst h; rfl
  | .ty t, t', k, h => by
    simp only [deselfifyGArg, gen_bind_ok, gen_pure_ok] at h
    obtain ⟨e', he, rfl⟩ := h
    rw [rewriteGArg, deselfify_rewrite hg t e' k he]
  | .const _, t', k, h => by simp only [deselfifyGArg, gen_pure_ok] at h; subst h; rfl
  | .assocTy _ t, t', k, h => by
    simp only [deselfifyGArg, gen_bind_ok, gen_pure_ok] at h
    obtain ⟨e', he, rfl⟩ := h
    rw [rewriteGArg, deselfify_rewrite hg t e' k he]
  | .assocConst _ _, t', k, h => by simp only [deselfifyGArg, gen_pure_ok] at h; subst h; rfl
  | .constraint _ b, t', k, h => by
    simp only [deselfifyGArg, gen_pure_ok] at h
    subst h
    rw [rewriteGArg, rewriteBounds_id _ b fun x hx => selfRewrite_fixes (k x hx)]
theorem deselfifyBound_rewrite (hg : ∀ a, selfArgs g = .ok a → a = args) : ∀ (t t' : Bound),
    (All NotSelf (unseenBound selfBlind t)) → deselfifyBound actual g t = .ok t' → t' = rewriteBound R t
  | .trait _ _ _ s, t', k, h => by
    simp only [deselfifyBound, gen_bind_ok, gen_pure_ok] at h
    obtain ⟨e', he, rfl⟩ := h
    rw [rewriteBound, deselfifySegs_rewrite hg s e' k he]
  | .lt l, t', k, h => by simp only [deselfifyBound, gen_pure_ok] at h; subst h; rfl
  | .other _, t', k, h => by simp only [deselfifyBound, gen_pure_ok] at h; subst h; rfl
theorem deselfifyTys_rewrite (hg : ∀ a, selfArgs g = .ok a → a = args) : ∀ (t t' : List Ty),
    (All NotSelf (unseenTys selfBlind t)) → deselfifyTys actual g t = .ok t' → t' = rewrites R t
  | [], t', k, h => by simp only [deselfifyTys, gen_pure_ok] at h; subst h; rfl
  | t :: l, t', k, h => by
    simp only [deselfifyTys, gen_bind_ok, gen_pure_ok] at h
    obtain ⟨q', hq, e', he, rfl⟩ := h
    rw [rewrites, deselfify_rewrite hg t q' k.left hq,
      deselfifyTys_rewrite hg l e' k.right he]
theorem deselfifySegs_rewrite (hg : ∀ a, selfArgs g = .ok a → a = args) : ∀ (t t' : List Seg),
    (All NotSelf (unseenSegs selfBlind t)) → deselfifySegs actual g t = .ok t' → t' = rewriteSegs R t
  | [], t', k, h => by simp only [deselfifySegs, gen_pure_ok] at h; subst h; rfl
  | t :: l, t', k, h => by
    simp only [deselfifySegs, gen_bind_ok, gen_pure_ok] at h
    obtain ⟨q', hq, e', he, rfl⟩ := h
    rw [unseenSegs_cons rfl] at k
    rw [rewriteSegs, deselfifySeg_rewrite hg t q' k.left hq,
      deselfifySegs_rewrite hg l e' k.right he]
theorem deselfifyGArgs_rewrite (hg : ∀ a, selfArgs g = .ok a → a = args) : ∀ (t t' : List GArg),
    (All NotSelf (unseenGArgs selfBlind t)) → deselfifyGArgs actual g t = .ok t' → t' = rewriteGArgs R t
  | [], t', k, h => by simp only [deselfifyGArgs, gen_pure_ok] at h; subst h; rfl
  | t :: l, t', k, h => by
    simp only [deselfifyGArgs, gen_bind_ok, gen_pure_ok] at h
    obtain ⟨q', hq, e', he, rfl⟩ := h
    rw [rewriteGArgs, deselfifyGArg_rewrite hg t q' k.left hq,
      deselfifyGArgs_rewrite hg l e' k.right he]
theorem deselfifyBounds_rewrite (hg : ∀ a, selfArgs g = .ok a → a = args) : ∀ (t t' : List Bound),
    (All NotSelf (unseenBounds selfBlind t)) → deselfifyBounds actual g t = .ok t' → t' = rewriteBounds R t
  | [], t', k, h => by simp only [deselfifyBounds, gen_pure_ok] at h; subst h; rfl
  | t :: l, t', k, h => by
    simp only [deselfifyBounds, gen_bind_ok, gen_pure_ok] at h
    obtain ⟨q', hq, e', he, rfl⟩ := h
    rw [rewriteBounds, deselfifyBound_rewrite hg t q' k.left hq,
      deselfifyBounds_rewrite hg l e' k.right he]
end

/-! Success. -/


mutual
theorem deselfify_ok (hg : selfArgs g = .ok args) : ∀ (t : Ty),
    (All SelfSupported (leaves t)) → Gen.succeeds (deselfify actual g t)
  | .array e l, k => by
    simp only [deselfify, succeeds_bind, succeeds_pure, and_true]; exact deselfify_ok hg e k
  | .bareFn l i o, k => by simp [deselfify]
  | .group e, k => by
    simp only [deselfify, succeeds_bind, succeeds_pure, and_true]; exact deselfify_ok hg e k
  | .implTrait b, k => by simp [deselfify]
  | .infer, k => by simp [deselfify]
  | .mac _, k => absurd rfl (k (.form .opaque) (by simp [leaves])).1
  | .never, k => by simp [deselfify]
  | .paren e, k => by
    simp only [deselfify, succeeds_bind, succeeds_pure, and_true]; exact deselfify_ok hg e k
  | .path l s, k => by
    simp only [deselfify, succeeds_bind, succeeds_pure, and_true]; exact deselfifySegs_ok hg s k
  | .qpath q p l s, k => by
    simp only [deselfify, succeeds_bind, succeeds_pure, and_true]
    obtain ⟨a, ha⟩ := deselfify_ok hg q k.tail.left
    exact ⟨a, ha, deselfifySegs_ok hg s k.tail.right⟩
  | .ptr m e, k => by
    simp only [deselfify, succeeds_bind, succeeds_pure, and_true]; exact deselfify_ok hg e k
  | .ref l m e, k => by
    simp only [deselfify, succeeds_bind, succeeds_pure, and_true]
    exact deselfify_ok hg e k.right
  | .slice e, k => by
    simp only [deselfify, succeeds_bind, succeeds_pure, and_true]; exact deselfify_ok hg e k
  | .traitObject b, k => by
    simp only [deselfify, succeeds_bind, succeeds_pure, and_true]; exact deselfifyBounds_ok hg b k
  | .tuple l, k => by
    simp only [deselfify, succeeds_bind, succeeds_pure, and_true]; exact deselfifyTys_ok hg l k
  | .verbatim _, k => absurd rfl (k (.form .opaque) (by simp [leaves])).1
theorem deselfifySeg_ok (hg : selfArgs g = .ok args) : ∀ (t : Seg),
    (All SelfSupported (leavesSeg t)) → Gen.succeeds (deselfifySeg actual g t)
  | .mk i a, k => by
    rw [deselfifySeg.eq_def]; dsimp only
    split
    · rename_i hi; subst hi
      split
      · simp only [hg, succeeds_bind, succeeds_pure]; exact ⟨_, rfl, trivial⟩
      · rename_i ha
        refine absurd rfl (k (.seg "Self" false) ?_).2
        have : bare a = false := by cases a <;> simp_all [bare]
        simp [leavesSeg, this]
    · simp only [succeeds_bind, succeeds_pure, and_true]
      exact deselfifyArgs_ok hg a fun x hx => k x (by simp [leavesSeg, hx])
theorem deselfifyArgs_ok (hg : selfArgs g = .ok args) : ∀ (t : Args),
    (All SelfSupported (leavesArgs t)) → Gen.succeeds (deselfifyArgs actual g t)
  | .none, k => by simp [deselfifyArgs]
  | .angle l, k => by
    simp only [deselfifyArgs, succeeds_bind, succeeds_pure, and_true]; exact deselfifyGArgs_ok hg l k
  | .paren i o, k => by simp [deselfifyArgs]
theorem deselfifyGArg_ok (hg : selfArgs g = .ok args) : ∀ (t : GArg),
    (All SelfSupported (leavesGArg t)) → Gen.succeeds (deselfifyGArg actual g t)
  | .lt _, k => by simp [deselfifyGArg]
  | .ty t, k => by
    simp only [deselfifyGArg, succeeds_bind, succeeds_pure, and_true]; exact deselfify_ok hg t k
  | .const _, k => by simp [deselfifyGArg]
  | .assocTy _ t, k => by
    simp only [deselfifyGArg, succeeds_bind, succeeds_pure, and_true]; exact deselfify_ok hg t k
  | .assocConst _ _, k => by simp [deselfifyGArg]
  | .constraint _ b, k => by simp [deselfifyGArg]
theorem deselfifyBound_ok (hg : selfArgs g = .ok args) : ∀ (t : Bound),
    (All SelfSupported (leavesBound t)) → Gen.succeeds (deselfifyBound actual g t)
  | .trait _ _ _ s, k => by
    simp only [deselfifyBound, succeeds_bind, succeeds_pure, and_true]; exact deselfifySegs_ok hg s k
  | .lt l, k => by simp [deselfifyBound]
  | .other _, k => by simp [deselfifyBound]
theorem deselfifyTys_ok (hg : selfArgs g = .ok args) : ∀ (t : List Ty),
    (All SelfSupported (leavesTys t)) → Gen.succeeds (deselfifyTys actual g t)
  | [], k => by simp [deselfifyTys]
  | t :: l, k => by
    simp only [deselfifyTys, succeeds_bind, succeeds_pure, and_true]
    obtain ⟨a, ha⟩ := deselfify_ok hg t k.left
    exact ⟨a, ha, deselfifyTys_ok hg l k.right⟩
theorem deselfifySegs_ok (hg : selfArgs g = .ok args) : ∀ (t : List Seg),
    (All SelfSupported (leavesSegs t)) → Gen.succeeds (deselfifySegs actual g t)
  | [], k => by simp [deselfifySegs]
  | t :: l, k => by
    simp only [deselfifySegs, succeeds_bind, succeeds_pure, and_true]
    obtain ⟨a, ha⟩ := deselfifySeg_ok hg t k.left
    exact ⟨a, ha, deselfifySegs_ok hg l k.right⟩
theorem deselfifyGArgs_ok (hg : selfArgs g = .ok args) : ∀ (t : List GArg),
    (All SelfSupported (leavesGArgs t)) → Gen.succeeds (deselfifyGArgs actual g t)
  | [], k => by simp [deselfifyGArgs]
  | t :: l, k => by
    simp only [deselfifyGArgs, succeeds_bind, succeeds_pure, and_true]
    obtain ⟨a, ha⟩ := deselfifyGArg_ok hg t k.left
    exact ⟨a, ha, deselfifyGArgs_ok hg l k.right⟩
theorem deselfifyBounds_ok (hg : selfArgs g = .ok args) : ∀ (t : List Bound),
    (All SelfSupported (leavesBounds t)) → Gen.succeeds (deselfifyBounds actual g t)
  | [], k => by simp [deselfifyBounds]
  | t :: l, k => by
    simp only [deselfifyBounds, succeeds_bind, succeeds_pure, and_true]
    obtain ⟨a, ha⟩ := deselfifyBound_ok hg t k.left
    exact ⟨a, ha, deselfifyBounds_ok hg l k.right⟩
end

end

end Mockall.Derive
