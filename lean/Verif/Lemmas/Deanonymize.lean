import Verif.Derive.Types
import Verif.Spec.Types
import Verif.Lemmas.Gen

/-! `deanonymize` against the specification of replacing lifetimes. -/

namespace Mockall.Derive

open Spec

theorem anonRewrite_fixes {x : Leaf} (h : NotAnon x) : anonRewrite.Fixes x := by
  cases x with
  | form f => trivial
  | seg i b => intro a _; rfl
  | lt l =>
    have : l ≠ "_" := by rintro rfl; exact h rfl
    simp [Rewrite.Fixes, anonRewrite, this]

theorem deanonymizeGArg_rewrite (t : GArg) (k : All NotAnon (unseenGArg anonBlind t)) :
    deanonymizeGArg t = rewriteGArg anonRewrite t := by
  cases t with
  | lt l => rfl
  | ty t => exact (congrArg GArg.ty (rewrite_id _ t fun x hx => anonRewrite_fixes (k x hx))).symm
  | const e => rfl
  | assocTy i t =>
    exact (congrArg (GArg.assocTy i) (rewrite_id _ t fun x hx => anonRewrite_fixes (k x hx))).symm
  | assocConst i e => rfl
  | constraint i b =>
    exact (congrArg (GArg.constraint i)
      (rewriteBounds_id _ b fun x hx => anonRewrite_fixes (k x hx))).symm

theorem map_deanonymizeGArg : ∀ (l : List GArg), All NotAnon (unseenGArgs anonBlind l) →
    l.map deanonymizeGArg = rewriteGArgs anonRewrite l
  | [], _ => rfl
  | t :: l, k => by
    rw [List.map_cons, deanonymizeGArg_rewrite t k.left, map_deanonymizeGArg l k.right, rewriteGArgs]

theorem deanonymizeSeg_rewrite (t t' : Seg) (k : All NotAnon (unseenSeg anonBlind t))
    (h : deanonymizeSeg t = .ok t') : t' = rewriteSeg anonRewrite t := by
  obtain ⟨i, a⟩ := t
  cases a with
  | none => simp only [deanonymizeSeg, gen_pure_ok] at h; subst h; rfl
  | angle l =>
    simp only [deanonymizeSeg, gen_pure_ok] at h
    subst h
    rw [rewriteSeg, rewriteArgs, map_deanonymizeGArg l k]; rfl
  | paren i o => simp [deanonymizeSeg] at h

theorem deanonymizePath_rewrite : ∀ (t t' : List Seg), All NotAnon (unseenSegs anonBlind t) →
    deanonymizePath t = .ok t' → t' = rewriteSegs anonRewrite t
  | [], t', k, h => by
    simp only [deanonymizePath, List.mapM_nil, gen_pure_ok] at h; subst h; rfl
  | t :: l, t', k, h => by
    simp only [deanonymizePath, List.mapM_cons, gen_bind_ok, gen_pure_ok] at h
    obtain ⟨q', hq, e', he, rfl⟩ := h
    rw [unseenSegs_cons rfl] at k
    rw [rewriteSegs, deanonymizeSeg_rewrite t q' k.left hq, deanonymizePath_rewrite l e' k.right he]

theorem deanonymizeBound_rewrite (t t' : Bound) (k : All NotAnon (unseenBound anonBlind t))
    (h : deanonymizeBound t = .ok t') : t' = rewriteBound anonRewrite t := by
  cases t with
  | trait m l c s =>
    simp only [deanonymizeBound, gen_bind_ok, gen_pure_ok] at h
    obtain ⟨e', he, rfl⟩ := h
    rw [rewriteBound, deanonymizePath_rewrite s e' k he]
  | lt l => simp only [deanonymizeBound, gen_pure_ok] at h; subst h; rfl
  | other s => simp only [deanonymizeBound, gen_pure_ok] at h; subst h; rfl

theorem deanonymizeBounds_rewrite : ∀ (t t' : List Bound), All NotAnon (unseenBounds anonBlind t) →
    t.mapM deanonymizeBound = .ok t' → t' = rewriteBounds anonRewrite t
  | [], t', k, h => by simp only [List.mapM_nil, gen_pure_ok] at h; subst h; rfl
  | t :: l, t', k, h => by
    simp only [List.mapM_cons, gen_bind_ok, gen_pure_ok] at h
    obtain ⟨q', hq, e', he, rfl⟩ := h
    rw [rewriteBounds, deanonymizeBound_rewrite t q' k.left hq,
      deanonymizeBounds_rewrite l e' k.right he]

mutual
theorem deanonymize_rewrite : ∀ (t t' : Ty),
    All NotAnon (unseen anonBlind t) → deanonymize t = .ok t' → t' = rewrite anonRewrite t
  | .array e l, t', k, h => by
    simp only [deanonymize, gen_bind_ok, gen_pure_ok] at h
    obtain ⟨e', he, rfl⟩ := h
    rw [rewrite, deanonymize_rewrite e e' k he]
  | .bareFn l i o, t', k, h => by
    simp only [deanonymize, gen_bind_ok, gen_pure_ok] at h
    obtain ⟨o', ho, i', hi, rfl⟩ := h
    have k : All NotAnon (unseenTys anonBlind i ++ unseenRet anonBlind o) := k
    rw [rewrite, deanonymizeTys_rewrite i i' k.left hi, deanonymizeRet_rewrite o o' k.right ho]
  | .group e, t', k, h => by
    simp only [deanonymize, gen_bind_ok, gen_pure_ok] at h
    obtain ⟨e', he, rfl⟩ := h
    rw [rewrite, deanonymize_rewrite e e' k he]
  | .implTrait b, t', k, h => by simp [deanonymize] at h
  | .infer, t', k, h => by simp only [deanonymize, gen_pure_ok] at h; subst h; rfl
  | .mac _, t', k, h => by simp [deanonymize] at h
  | .never, t', k, h => by simp only [deanonymize, gen_pure_ok] at h; subst h; rfl
  | .paren e, t', k, h => by
    simp only [deanonymize, gen_bind_ok, gen_pure_ok] at h
    obtain ⟨e', he, rfl⟩ := h
    rw [rewrite, deanonymize_rewrite e e' k he]
  | .path l s, t', k, h => by
    simp only [deanonymize, gen_bind_ok, gen_pure_ok] at h
    obtain ⟨e', he, rfl⟩ := h
    rw [rewrite, deanonymizePath_rewrite s e' k he]
  | .qpath q p l s, t', k, h => by
    simp only [deanonymize, gen_bind_ok, gen_pure_ok] at h
    obtain ⟨q', hq, e', he, rfl⟩ := h
    rw [rewrite, deanonymize_rewrite q q' k.left hq, deanonymizePath_rewrite s e' k.right he]
  | .ptr m e, t', k, h => by
    simp only [deanonymize, gen_bind_ok, gen_pure_ok] at h
    obtain ⟨e', he, rfl⟩ := h
    rw [rewrite, deanonymize_rewrite e e' k he]
  | .ref l m e, t', k, h => by
    simp only [deanonymize, gen_bind_ok, gen_pure_ok] at h
    obtain ⟨e', he, rfl⟩ := h
    rw [rewrite, deanonymize_rewrite e e' k he]
    cases l <;> rfl
  | .slice e, t', k, h => by
    simp only [deanonymize, gen_bind_ok, gen_pure_ok] at h
    obtain ⟨e', he, rfl⟩ := h
    rw [rewrite, deanonymize_rewrite e e' k he]
  | .traitObject b, t', k, h => by
    simp only [deanonymize, gen_bind_ok, gen_pure_ok] at h
    obtain ⟨e', he, rfl⟩ := h
    rw [rewrite, deanonymizeBounds_rewrite b e' k he]
  | .tuple l, t', k, h => by
    simp only [deanonymize, gen_bind_ok, gen_pure_ok] at h
    obtain ⟨e', he, rfl⟩ := h
    rw [rewrite, deanonymizeTys_rewrite l e' k he]
  | .verbatim _, t', k, h => by simp [deanonymize] at h
theorem deanonymizeRet_rewrite : ∀ (t t' : Ret),
    All NotAnon (unseenRet anonBlind t) → deanonymizeRet t = .ok t' → t' = rewriteRet anonRewrite t
  | .unit, t', k, h => by simp only [deanonymizeRet, gen_pure_ok] at h; subst h; rfl
  | .ty t, t', k, h => by
    simp only [deanonymizeRet, gen_bind_ok, gen_pure_ok] at h
    obtain ⟨e', he, rfl⟩ := h
    rw [rewriteRet, deanonymize_rewrite t e' k he]
theorem deanonymizeTys_rewrite : ∀ (t t' : List Ty),
    All NotAnon (unseenTys anonBlind t) → deanonymizeTys t = .ok t' → t' = rewrites anonRewrite t
  | [], t', k, h => by simp only [deanonymizeTys, gen_pure_ok] at h; subst h; rfl
  | t :: l, t', k, h => by
    simp only [deanonymizeTys, gen_bind_ok, gen_pure_ok] at h
    obtain ⟨q', hq, e', he, rfl⟩ := h
    rw [rewrites, deanonymize_rewrite t q' k.left hq, deanonymizeTys_rewrite l e' k.right he]
end

/-! Success. -/

theorem deanonymizeSeg_ok (t : Seg) (k : All AnonSupported (leavesSeg t)) :
    Gen.succeeds (deanonymizeSeg t) := by
  obtain ⟨i, a⟩ := t
  cases a with
  | none => simp [deanonymizeSeg]
  | angle l => simp [deanonymizeSeg]
  | paren j o => exact absurd rfl (k (.form .fnArgs) (by simp [leavesSeg, leavesArgs])).2.2

theorem deanonymizePath_ok : ∀ (t : List Seg), All AnonSupported (leavesSegs t) →
    Gen.succeeds (deanonymizePath t)
  | [], _ => by simp [deanonymizePath]
  | t :: l, k => by
    simp only [deanonymizePath, List.mapM_cons, succeeds_bind, succeeds_pure, and_true]
    obtain ⟨a, ha⟩ := deanonymizeSeg_ok t k.left
    exact ⟨a, ha, deanonymizePath_ok l k.right⟩

theorem deanonymizeBounds_ok : ∀ (t : List Bound), All AnonSupported (leavesBounds t) →
    Gen.succeeds (t.mapM deanonymizeBound)
  | [], _ => by simp
  | t :: l, k => by
    simp only [List.mapM_cons, succeeds_bind, succeeds_pure, and_true]
    obtain ⟨l', hl⟩ := deanonymizeBounds_ok l k.right
    cases t with
    | trait m lt c s =>
      obtain ⟨a, ha⟩ := deanonymizePath_ok s k.left
      exact ⟨.trait m lt c a, by simp only [deanonymizeBound, gen_bind_ok]; exact ⟨_, ha, rfl⟩, l', hl⟩
    | lt x => exact ⟨_, rfl, l', hl⟩
    | other x => exact ⟨_, rfl, l', hl⟩

mutual
theorem deanonymize_ok : ∀ (t : Ty), All AnonSupported (leaves t) → Gen.succeeds (deanonymize t)
  | .array e l, k => by
    simp only [deanonymize, succeeds_bind, succeeds_pure, and_true]; exact deanonymize_ok e k
  | .bareFn l i o, k => by
    simp only [deanonymize, succeeds_bind, succeeds_pure, and_true]
    obtain ⟨a, ha⟩ := deanonymizeRet_ok o k.tail.right
    exact ⟨a, ha, deanonymizeTys_ok i k.tail.left⟩
  | .group e, k => by
    simp only [deanonymize, succeeds_bind, succeeds_pure, and_true]; exact deanonymize_ok e k
  | .implTrait b, k => absurd rfl k.head.2.1
  | .infer, k => by simp [deanonymize]
  | .mac _, k => absurd rfl (k (.form .opaque) (by simp [leaves])).1
  | .never, k => by simp [deanonymize]
  | .paren e, k => by
    simp only [deanonymize, succeeds_bind, succeeds_pure, and_true]; exact deanonymize_ok e k
  | .path l s, k => by
    simp only [deanonymize, succeeds_bind, succeeds_pure, and_true]; exact deanonymizePath_ok s k
  | .qpath q p l s, k => by
    simp only [deanonymize, succeeds_bind, succeeds_pure, and_true]
    obtain ⟨a, ha⟩ := deanonymize_ok q k.tail.left
    exact ⟨a, ha, deanonymizePath_ok s k.tail.right⟩
  | .ptr m e, k => by
    simp only [deanonymize, succeeds_bind, succeeds_pure, and_true]; exact deanonymize_ok e k
  | .ref l m e, k => by
    simp only [deanonymize, succeeds_bind, succeeds_pure, and_true]
    exact deanonymize_ok e k.right
  | .slice e, k => by
    simp only [deanonymize, succeeds_bind, succeeds_pure, and_true]; exact deanonymize_ok e k
  | .traitObject b, k => by
    simp only [deanonymize, succeeds_bind, succeeds_pure, and_true]; exact deanonymizeBounds_ok b k
  | .tuple l, k => by
    simp only [deanonymize, succeeds_bind, succeeds_pure, and_true]; exact deanonymizeTys_ok l k
  | .verbatim _, k => absurd rfl (k (.form .opaque) (by simp [leaves])).1
theorem deanonymizeRet_ok : ∀ (t : Ret), All AnonSupported (leavesRet t) →
    Gen.succeeds (deanonymizeRet t)
  | .unit, k => by simp [deanonymizeRet]
  | .ty t, k => by
    simp only [deanonymizeRet, succeeds_bind, succeeds_pure, and_true]; exact deanonymize_ok t k
theorem deanonymizeTys_ok : ∀ (t : List Ty), All AnonSupported (leavesTys t) →
    Gen.succeeds (deanonymizeTys t)
  | [], k => by simp [deanonymizeTys]
  | t :: l, k => by
    simp only [deanonymizeTys, succeeds_bind, succeeds_pure, and_true]
    obtain ⟨a, ha⟩ := deanonymize_ok t k.left
    exact ⟨a, ha, deanonymizeTys_ok l k.right⟩
end

end Mockall.Derive
