import Verif.Derive.Types
import Verif.Spec.Types
import Verif.Lemmas.Gen

/-! `Attrs::substitute_type` against the specification of replacing types. -/

namespace Mockall.Derive

open Spec

theorem isSelf_mem {q : Ty} (h : isSelf q = true) : ∃ b, .seg "Self" b ∈ leaves q := by
  unfold isSelf at h
  split at h
  · rename_i c s hq
    obtain ⟨i, a⟩ := s
    have h : i = "Self" := of_decide_eq_true h
    subst h
    cases q <;> simp [pathOf] at hq
    · obtain ⟨rfl, rfl⟩ := hq
      exact ⟨bare a, by simp [leaves, leavesSegs, leavesSeg]⟩
    · obtain ⟨rfl, rfl⟩ := hq
      exact ⟨bare a, by simp [leaves, leavesSegs, leavesSeg]⟩
  · cases h

theorem assoc_needs (σ : Ident → Option Ty) (trait : Ident) :
    Needs (assocReplace σ trait) "Self" := by
  intro t u h
  unfold assocReplace assocOf at h
  split at h
  · rename_i s t
    split at h
    · rename_i hs
      obtain ⟨i, a⟩ := s
      simp only [Seg.id] at hs
      subst hs
      exact ⟨bare a, by simp [leaves, leavesSegs, leavesSeg]⟩
    · simp at h
  · rename_i q l s t
    split at h
    · rename_i hs
      obtain ⟨b, hb⟩ := isSelf_mem hs.1
      exact ⟨b, by simp [leaves, hb]⟩
    · simp at h
  · simp at h

section
variable {σ : Subst} {trait : Ident}

local notation "r" => assocReplace (fun i => List.lookup i σ) trait
local notation "NS" => Lacks "Self"

theorem getPath_assoc (lead : Bool) (s : List Seg) : getPath σ lead s = r (.path lead s) := by
  unfold getPath assocReplace assocOf
  split
  · split <;> simp_all
  · rename_i h
    split
    · rename_i e; cases e; exact (h _ _ rfl rfl).elim
    · rename_i e; cases e
    · rfl

theorem substQself_assoc {q : Ty} {p : Nat} {l : Bool} {s : List Seg} {t' : Ty}
    (h : substQself σ trait q p s = .ok t') : r (.qpath q p l s) = some t' := by
  unfold substQself at h
  split at h
  · simp at h
  · rename_i qs hq
    split at h
    · rename_i qi pen last
      have hs : isSelf q = decide (qi.id = "Self") := by
        unfold isSelf
        cases q <;> simp_all [qselfPath, pathOf]
      split at h
      · simp at h
      · rename_i h1
        split at h
        · simp at h
        · rename_i h2
          split at h
          · rename_i u hu
            simp only [gen_pure_ok] at h
            subst h
            simp only [ne_eq, Decidable.not_not] at h1 h2
            simp [assocReplace, assocOf, hs, h1, h2, hu]
          · simp at h
    · simp at h

mutual
theorem substTy_replace : ∀ (t t' : Ty),
    All NS (unseen substBlind t) → substTy σ trait t = .ok t' → t' = replace r t
  | .array e l, t', k, h => by
    simp only [substTy, gen_bind_ok, gen_pure_ok] at h
    obtain ⟨e', he, rfl⟩ := h
    rw [replace, substTy_replace e e' k he]
  | .bareFn l i o, t', k, h => by
    simp only [substTy, gen_bind_ok, gen_pure_ok] at h
    obtain ⟨i', hi, o', ho, rfl⟩ := h
    have k : All NS (unseenTys substBlind i ++ unseenRet substBlind o) := k
    rw [replace, substTys_replace i i' k.left hi, substRet_replace o o' k.right ho]
  | .group e, t', k, h => by
    simp only [substTy, gen_bind_ok, gen_pure_ok] at h
    obtain ⟨e', he, rfl⟩ := h
    rw [replace, substTy_replace e e' k he]
  | .implTrait b, t', k, h => by
    simp only [substTy, gen_bind_ok, gen_pure_ok] at h
    obtain ⟨e', he, rfl⟩ := h
    rw [replace, substBounds_replace b e' k he]
  | .infer, t', k, h => by simp only [substTy, gen_pure_ok] at h; subst h; rfl
  | .mac _, t', k, h => by simp [substTy] at h
  | .never, t', k, h => by simp only [substTy, gen_pure_ok] at h; subst h; rfl
  | .paren e, t', k, h => by
    simp only [substTy, gen_bind_ok, gen_pure_ok] at h
    obtain ⟨e', he, rfl⟩ := h
    rw [replace, substTy_replace e e' k he]
  | .path l s, t', k, h => by
    rw [substTy.eq_def] at h; dsimp only at h
    rw [getPath_assoc] at h
    rw [replace]
    split at h
    · rename_i u hu
      simp only [gen_pure_ok] at h
      subst h
      rw [hu, Option.getD_some]
    · rename_i hu
      simp only [gen_bind_ok, gen_pure_ok] at h
      obtain ⟨e', he, rfl⟩ := h
      rw [hu, Option.getD_none, substSegs_replace s e' k he]
  | .qpath q p l s, t', k, h => by
    simp only [substTy] at h
    rw [replace, substQself_assoc h, Option.getD_some]
  | .ptr m e, t', k, h => by
    simp only [substTy, gen_bind_ok, gen_pure_ok] at h
    obtain ⟨e', he, rfl⟩ := h
    rw [replace, substTy_replace e e' k he]
  | .ref l m e, t', k, h => by
    simp only [substTy, gen_bind_ok, gen_pure_ok] at h
    obtain ⟨e', he, rfl⟩ := h
    rw [replace, substTy_replace e e' k he]
  | .slice e, t', k, h => by
    simp only [substTy, gen_bind_ok, gen_pure_ok] at h
    obtain ⟨e', he, rfl⟩ := h
    rw [replace, substTy_replace e e' k he]
  | .traitObject b, t', k, h => by
    simp only [substTy, gen_bind_ok, gen_pure_ok] at h
    obtain ⟨e', he, rfl⟩ := h
    rw [replace, substBounds_replace b e' k he]
  | .tuple l, t', k, h => by
    simp only [substTy, gen_bind_ok, gen_pure_ok] at h
    obtain ⟨e', he, rfl⟩ := h
    rw [replace, substTys_replace l e' k he]
  | .verbatim _, t', k, h => by simp [substTy] at h
theorem substRet_replace : ∀ (t t' : Ret),
    All NS (unseenRet substBlind t) → substRet σ trait t = .ok t' → t' = replaceRet r t
  | .unit, t', k, h => by simp only [substRet, gen_pure_ok] at h; subst h; rfl
  | .ty t, t', k, h => by
    simp only [substRet, gen_bind_ok, gen_pure_ok] at h
    obtain ⟨e', he, rfl⟩ := h
    rw [replaceRet, substTy_replace t e' k he]
theorem substSeg_replace : ∀ (t t' : Seg),
    All NS (unseenSeg substBlind t) → substSeg σ trait t = .ok t' → t' = replaceSeg r t
  | .mk i a, t', k, h => by
    simp only [substSeg, gen_bind_ok, gen_pure_ok] at h
    obtain ⟨e', he, rfl⟩ := h
    rw [replaceSeg, substArgs_replace a e' k he]
theorem substArgs_replace : ∀ (t t' : Args),
    All NS (unseenArgs substBlind t) → substArgs σ trait t = .ok t' → t' = replaceArgs r t
  | .none, t', k, h => by simp only [substArgs, gen_pure_ok] at h; subst h; rfl
  | .angle l, t', k, h => by
    simp only [substArgs, gen_bind_ok, gen_pure_ok] at h
    obtain ⟨e', he, rfl⟩ := h
    rw [replaceArgs, substGArgs_replace l e' k he]
  | .paren i o, t', k, h => by simp [substArgs] at h
theorem substGArg_replace : ∀ (t t' : GArg),
    All NS (unseenGArg substBlind t) → substGArg σ trait t = .ok t' → t' = replaceGArg r t
  | .lt _, t', k, h => by simp only [substGArg, gen_pure_ok] at h; subst h; rfl
  | .ty t, t', k, h => by
    simp only [substGArg, gen_bind_ok, gen_pure_ok] at h
    obtain ⟨e', he, rfl⟩ := h
    rw [replaceGArg, substTy_replace t e' k he]
  | .const _, t', k, h => by simp only [substGArg, gen_pure_ok] at h; subst h; rfl
  | .assocTy _ t, t', k, h => by
    simp only [substGArg, gen_bind_ok, gen_pure_ok] at h
    obtain ⟨e', he, rfl⟩ := h
    rw [replaceGArg, substTy_replace t e' k he]
  | .assocConst _ _, t', k, h => by simp only [substGArg, gen_pure_ok] at h; subst h; rfl
  | .constraint _ b, t', k, h => by
    simp only [substGArg, gen_pure_ok] at h
    subst h
    rw [replaceGArg, replaceBounds_id (assoc_needs _ _) b k]
theorem substBound_replace : ∀ (t t' : Bound),
    All NS (unseenBound substBlind t) → substBound σ trait t = .ok t' → t' = replaceBound r t
  | .trait _ _ c s, t', k, h => by
    rw [substBound.eq_def] at h; dsimp only at h
    rw [getPath_assoc] at h
    split at h
    · rename_i hu
      simp only [gen_bind_ok, gen_pure_ok] at h
      obtain ⟨e', he, rfl⟩ := h
      rw [replaceBound, hu]
      simp only [Option.bind_none]
      rw [substSegs_replace s e' k he]
    · rename_i hu
      simp only [gen_pure_ok] at h
      subst h
      rw [replaceBound, hu]
      rfl
    · rename_i hu
      simp only [gen_pure_ok] at h
      subst h
      rw [replaceBound, hu]
      rfl
    · simp at h
  | .lt l, t', k, h => by simp only [substBound, gen_pure_ok] at h; subst h; rfl
  | .other _, t', k, h => by simp only [substBound, gen_pure_ok] at h; subst h; rfl
theorem substTys_replace : ∀ (t t' : List Ty),
    All NS (unseenTys substBlind t) → substTys σ trait t = .ok t' → t' = replaces r t
  | [], t', k, h => by simp only [substTys, gen_pure_ok] at h; subst h; rfl
  | t :: l, t', k, h => by
    simp only [substTys, gen_bind_ok, gen_pure_ok] at h
    obtain ⟨q', hq, e', he, rfl⟩ := h
    rw [replaces, substTy_replace t q' k.left hq, substTys_replace l e' k.right he]
theorem substSegs_replace : ∀ (t t' : List Seg),
    All NS (unseenSegs substBlind t) → substSegs σ trait t = .ok t' → t' = replaceSegs r t
  | [], t', k, h => by simp only [substSegs, gen_pure_ok] at h; subst h; rfl
  | t :: l, t', k, h => by
    simp only [substSegs, gen_bind_ok, gen_pure_ok] at h
    obtain ⟨q', hq, e', he, rfl⟩ := h
    rw [unseenSegs_cons rfl] at k
    rw [replaceSegs, substSeg_replace t q' k.left hq, substSegs_replace l e' k.right he]
theorem substGArgs_replace : ∀ (t t' : List GArg),
    All NS (unseenGArgs substBlind t) → substGArgs σ trait t = .ok t' → t' = replaceGArgs r t
  | [], t', k, h => by simp only [substGArgs, gen_pure_ok] at h; subst h; rfl
  | t :: l, t', k, h => by
    simp only [substGArgs, gen_bind_ok, gen_pure_ok] at h
    obtain ⟨q', hq, e', he, rfl⟩ := h
    rw [replaceGArgs, substGArg_replace t q' k.left hq, substGArgs_replace l e' k.right he]
theorem substBounds_replace : ∀ (t t' : List Bound),
    All NS (unseenBounds substBlind t) → substBounds σ trait t = .ok t' → t' = replaceBounds r t
  | [], t', k, h => by simp only [substBounds, gen_pure_ok] at h; subst h; rfl
  | t :: l, t', k, h => by
    simp only [substBounds, gen_bind_ok, gen_pure_ok] at h
    obtain ⟨q', hq, e', he, rfl⟩ := h
    rw [replaceBounds, substBound_replace t q' k.left hq, substBounds_replace l e' k.right he]
end

/-! Success. -/

/-- Only paths are substituted (needed where `Self::T` stands for a trait). -/
def Subst.Paths (σ : Subst) : Prop := ∀ i u, σ.lookup i = some u → (pathOf u).isSome

theorem getPath_mem {c : Bool} {s : List Seg} {u : Ty} (h : getPath σ c s = some u) :
    ∃ i, σ.lookup i = some u := by
  unfold getPath at h
  split at h
  · split at h
    · exact ⟨_, h⟩
    · cases h
  · cases h

mutual
theorem substTy_ok (hσ : σ.Paths) : ∀ (t : Ty),
    All SubstSupported (leaves t) → Gen.succeeds (substTy σ trait t)
  | .array e l, k => by
    simp only [substTy, succeeds_bind, succeeds_pure, and_true]; exact substTy_ok hσ e k
  | .bareFn l i o, k => by
    simp only [substTy, succeeds_bind, succeeds_pure, and_true]
    obtain ⟨a, ha⟩ := substTys_ok hσ i k.tail.left
    exact ⟨a, ha, substRet_ok hσ o k.tail.right⟩
  | .group e, k => by
    simp only [substTy, succeeds_bind, succeeds_pure, and_true]; exact substTy_ok hσ e k
  | .implTrait b, k => by
    simp only [substTy, succeeds_bind, succeeds_pure, and_true]; exact substBounds_ok hσ b k.tail
  | .infer, k => by simp [substTy]
  | .mac _, k => absurd rfl k.head.1
  | .never, k => by simp [substTy]
  | .paren e, k => by
    simp only [substTy, succeeds_bind, succeeds_pure, and_true]; exact substTy_ok hσ e k
  | .path l s, k => by
    rw [substTy.eq_def]; dsimp only
    split
    · simp
    · simp only [succeeds_bind, succeeds_pure, and_true]; exact substSegs_ok hσ s k
  | .qpath q p l s, k => absurd rfl k.head.2.2
  | .ptr m e, k => by
    simp only [substTy, succeeds_bind, succeeds_pure, and_true]; exact substTy_ok hσ e k
  | .ref l m e, k => by
    simp only [substTy, succeeds_bind, succeeds_pure, and_true]; exact substTy_ok hσ e k.right
  | .slice e, k => by
    simp only [substTy, succeeds_bind, succeeds_pure, and_true]; exact substTy_ok hσ e k
  | .traitObject b, k => by
    simp only [substTy, succeeds_bind, succeeds_pure, and_true]; exact substBounds_ok hσ b k
  | .tuple l, k => by
    simp only [substTy, succeeds_bind, succeeds_pure, and_true]; exact substTys_ok hσ l k
  | .verbatim _, k => absurd rfl k.head.1
theorem substRet_ok (hσ : σ.Paths) : ∀ (t : Ret),
    All SubstSupported (leavesRet t) → Gen.succeeds (substRet σ trait t)
  | .unit, k => by simp [substRet]
  | .ty t, k => by
    simp only [substRet, succeeds_bind, succeeds_pure, and_true]; exact substTy_ok hσ t k
theorem substSeg_ok (hσ : σ.Paths) : ∀ (t : Seg),
    All SubstSupported (leavesSeg t) → Gen.succeeds (substSeg σ trait t)
  | .mk i a, k => by
    simp only [substSeg, succeeds_bind, succeeds_pure, and_true]; exact substArgs_ok hσ a k.tail
theorem substArgs_ok (hσ : σ.Paths) : ∀ (t : Args),
    All SubstSupported (leavesArgs t) → Gen.succeeds (substArgs σ trait t)
  | .none, k => by simp [substArgs]
  | .angle l, k => by
    simp only [substArgs, succeeds_bind, succeeds_pure, and_true]; exact substGArgs_ok hσ l k
  | .paren i o, k => absurd rfl k.head.2.1
theorem substGArg_ok (hσ : σ.Paths) : ∀ (t : GArg),
    All SubstSupported (leavesGArg t) → Gen.succeeds (substGArg σ trait t)
  | .lt _, k => by simp [substGArg]
  | .ty t, k => by
    simp only [substGArg, succeeds_bind, succeeds_pure, and_true]; exact substTy_ok hσ t k
  | .const _, k => by simp [substGArg]
  | .assocTy _ t, k => by
    simp only [substGArg, succeeds_bind, succeeds_pure, and_true]; exact substTy_ok hσ t k
  | .assocConst _ _, k => by simp [substGArg]
  | .constraint _ b, k => by simp [substGArg]
theorem substBound_ok (hσ : σ.Paths) : ∀ (t : Bound),
    All SubstSupported (leavesBound t) → Gen.succeeds (substBound σ trait t)
  | .trait _ _ c s, k => by
    rw [substBound.eq_def]; dsimp only
    split
    · simp only [succeeds_bind, succeeds_pure, and_true]; exact substSegs_ok hσ s k
    · simp
    · simp
    · rename_i u h1 h2 hu
      obtain ⟨i, hi⟩ := getPath_mem hu
      have := hσ i _ hi
      cases u <;> first | exact (h1 _ _ rfl).elim | exact (h2 _ _ _ _ rfl).elim | simp [pathOf] at this
  | .lt l, k => by simp [substBound]
  | .other _, k => by simp [substBound]
theorem substTys_ok (hσ : σ.Paths) : ∀ (t : List Ty),
    All SubstSupported (leavesTys t) → Gen.succeeds (substTys σ trait t)
  | [], k => by simp [substTys]
  | t :: l, k => by
    simp only [substTys, succeeds_bind, succeeds_pure, and_true]
    obtain ⟨a, ha⟩ := substTy_ok hσ t k.left
    exact ⟨a, ha, substTys_ok hσ l k.right⟩
theorem substSegs_ok (hσ : σ.Paths) : ∀ (t : List Seg),
    All SubstSupported (leavesSegs t) → Gen.succeeds (substSegs σ trait t)
  | [], k => by simp [substSegs]
  | t :: l, k => by
    simp only [substSegs, succeeds_bind, succeeds_pure, and_true]
    obtain ⟨a, ha⟩ := substSeg_ok hσ t k.left
    exact ⟨a, ha, substSegs_ok hσ l k.right⟩
theorem substGArgs_ok (hσ : σ.Paths) : ∀ (t : List GArg),
    All SubstSupported (leavesGArgs t) → Gen.succeeds (substGArgs σ trait t)
  | [], k => by simp [substGArgs]
  | t :: l, k => by
    simp only [substGArgs, succeeds_bind, succeeds_pure, and_true]
    obtain ⟨a, ha⟩ := substGArg_ok hσ t k.left
    exact ⟨a, ha, substGArgs_ok hσ l k.right⟩
theorem substBounds_ok (hσ : σ.Paths) : ∀ (t : List Bound),
    All SubstSupported (leavesBounds t) → Gen.succeeds (substBounds σ trait t)
  | [], k => by simp [substBounds]
  | t :: l, k => by
    simp only [substBounds, succeeds_bind, succeeds_pure, and_true]
    obtain ⟨a, ha⟩ := substBound_ok hσ t k.left
    exact ⟨a, ha, substBounds_ok hσ l k.right⟩
end

end

end Mockall.Derive
