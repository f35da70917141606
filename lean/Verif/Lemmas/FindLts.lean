import Verif.Derive.Types
import Verif.Spec.Types
import Verif.Lemmas.Gen

/-! `find_lifetimes` against the list of everything in a type. -/

namespace Mockall.Derive

open Spec

/-- `L` are lifetimes in `l`, at least all that are not in `u`. -/
def LtsOf (L : List Lt) (l u : List Leaf) : Prop :=
  (∀ a ∈ L, .lt a ∈ l) ∧ ∀ a, .lt a ∈ l → a ∈ L ∨ .lt a ∈ u

theorem LtsOf.append {L M : List Lt} {l m u v : List Leaf} (h : LtsOf L l u) (k : LtsOf M m v) :
    LtsOf (L ++ M) (l ++ m) (u ++ v) := by
  constructor
  · intro a ha
    rcases List.mem_append.1 ha with ha | ha
    · exact List.mem_append_left _ (h.1 a ha)
    · exact List.mem_append_right _ (k.1 a ha)
  · intro a ha
    simp only [List.mem_append] at ha ⊢
    rcases ha with ha | ha
    · rcases h.2 a ha with h | h <;> simp [h]
    · rcases k.2 a ha with h | h <;> simp [h]

theorem LtsOf.nil {u : List Leaf} : LtsOf [] [] u := by constructor <;> simp

theorem LtsOf.single (a : Lt) {u : List Leaf} : LtsOf [a] [.lt a] u := by constructor <;> simp

theorem LtsOf.comm {L M : List Lt} {l m u : List Leaf} (h : LtsOf (L ++ M) (l ++ m) u) :
    LtsOf (M ++ L) (l ++ m) u := by
  constructor
  · intro a ha; exact h.1 a (by simp only [List.mem_append] at ha ⊢; exact ha.symm)
  · intro a ha
    have := h.2 a ha
    simp only [List.mem_append] at this ⊢
    rcases this with (h | h) | h <;> simp [h]

theorem LtsOf.form {L : List Lt} {l u : List Leaf} {f : Form} (h : LtsOf L l u) :
    LtsOf L (.form f :: l) u := by
  constructor
  · intro a ha; exact List.mem_cons_of_mem _ (h.1 a ha)
  · intro a ha; simp at ha; exact h.2 a ha

theorem LtsOf.seg {L : List Lt} {l u : List Leaf} {i : Ident} {b : Bool} (h : LtsOf L l u) :
    LtsOf L (.seg i b :: l) u := by
  constructor
  · intro a ha; exact List.mem_cons_of_mem _ (h.1 a ha)
  · intro a ha; simp at ha; exact h.2 a ha

mutual
theorem findLts_lts : ∀ (t : Ty) (L : List Lt), findLts t = .ok L →
    LtsOf L (leaves t) (unseen ltsBlind t)
  | .array e _, L, h => findLts_lts e L h
  | .bareFn _ _ _, L, h => by simp [findLts] at h
  | .group e, L, h => findLts_lts e L h
  | .implTrait b, L, h => (findLtsBounds_lts b L h).form
  | .infer, L, h => by simp only [findLts, gen_pure_ok] at h; subst h; exact .nil
  | .mac _, L, h => by simp [findLts] at h
  | .never, L, h => by simp only [findLts, gen_pure_ok] at h; subst h; exact .nil
  | .paren e, L, h => findLts_lts e L h
  | .path _ s, L, h => findLtsSegs_lts s L h
  | .qpath q _ _ s, L, h => by
    simp only [findLts, gen_bind_ok, gen_pure_ok] at h
    obtain ⟨a, ha, b, hb, rfl⟩ := h
    exact ((findLts_lts q b hb).append (findLtsSegs_lts s a ha)).comm.form
  | .ptr _ e, L, h => findLts_lts e L h
  | .ref l _ e, L, h => by
    simp only [findLts, gen_bind_ok, gen_pure_ok] at h
    obtain ⟨a, ha, rfl⟩ := h
    refine LtsOf.comm (u := unseen ltsBlind e) ?_
    cases l with
    | none => exact (LtsOf.nil (u := [])).append (findLts_lts e a ha)
    | some l => exact (LtsOf.single l (u := [])).append (findLts_lts e a ha)
  | .slice e, L, h => findLts_lts e L h
  | .traitObject b, L, h => findLtsBounds_lts b L h
  | .tuple l, L, h => findLtsTys_lts l L h
  | .verbatim _, L, h => by simp [findLts] at h
theorem findLtsSeg_lts : ∀ (t : Seg) (L : List Lt), findLtsSeg t = .ok L →
    LtsOf L (leavesSeg t) (unseenSeg ltsBlind t)
  | .mk _ a, L, h => (findLtsArgs_lts a L h).seg
theorem findLtsArgs_lts : ∀ (t : Args) (L : List Lt), findLtsArgs t = .ok L →
    LtsOf L (leavesArgs t) (unseenArgs ltsBlind t)
  | .none, L, h => by simp only [findLtsArgs, gen_pure_ok] at h; subst h; exact .nil
  | .angle l, L, h => findLtsGArgs_lts l L h
  | .paren i o, L, h => by
    simp only [findLtsArgs, gen_pure_ok] at h
    subst h
    refine LtsOf.form ⟨by simp, fun a ha => .inr ?_⟩
    exact ha
theorem findLtsGArg_lts : ∀ (t : GArg) (L : List Lt), findLtsGArg t = .ok L →
    LtsOf L (leavesGArg t) (unseenGArg ltsBlind t)
  | .lt l, L, h => by simp only [findLtsGArg, gen_pure_ok] at h; subst h; exact .single l
  | .ty t, L, h => findLts_lts t L h
  | .const _, L, h => by simp only [findLtsGArg, gen_pure_ok] at h; subst h; exact .nil
  | .assocTy _ t, L, h => findLts_lts t L h
  | .assocConst _ _, L, h => by simp only [findLtsGArg, gen_pure_ok] at h; subst h; exact .nil
  | .constraint _ b, L, h => findLtsBounds_lts b L h
theorem findLtsBound_lts : ∀ (t : Bound) (L : List Lt), findLtsBound t = .ok L →
    LtsOf L (leavesBound t) (unseenBound ltsBlind t)
  | .trait _ _ _ s, L, h => findLtsSegs_lts s L h
  | .lt l, L, h => by simp only [findLtsBound, gen_pure_ok] at h; subst h; exact .single l
  | .other _, L, h => by simp only [findLtsBound, gen_pure_ok] at h; subst h; exact .nil
theorem findLtsTys_lts : ∀ (t : List Ty) (L : List Lt), findLtsTys t = .ok L →
    LtsOf L (leavesTys t) (unseenTys ltsBlind t)
  | [], L, h => by simp only [findLtsTys, gen_pure_ok] at h; subst h; exact .nil
  | t :: l, L, h => by
    simp only [findLtsTys, gen_bind_ok, gen_pure_ok] at h
    obtain ⟨a, ha, b, hb, rfl⟩ := h
    exact (findLts_lts t a ha).append (findLtsTys_lts l b hb)
theorem findLtsSegs_lts : ∀ (t : List Seg) (L : List Lt), findLtsSegs t = .ok L →
    LtsOf L (leavesSegs t) (unseenSegs ltsBlind t)
  | [], L, h => by simp only [findLtsSegs, gen_pure_ok] at h; subst h; exact .nil
  | t :: l, L, h => by
    simp only [findLtsSegs, gen_bind_ok, gen_pure_ok] at h
    obtain ⟨a, ha, b, hb, rfl⟩ := h
    rw [unseenSegs_cons rfl]
    exact (findLtsSeg_lts t a ha).append (findLtsSegs_lts l b hb)
theorem findLtsGArgs_lts : ∀ (t : List GArg) (L : List Lt), findLtsGArgs t = .ok L →
    LtsOf L (leavesGArgs t) (unseenGArgs ltsBlind t)
  | [], L, h => by simp only [findLtsGArgs, gen_pure_ok] at h; subst h; exact .nil
  | t :: l, L, h => by
    simp only [findLtsGArgs, gen_bind_ok, gen_pure_ok] at h
    obtain ⟨a, ha, b, hb, rfl⟩ := h
    exact (findLtsGArg_lts t a ha).append (findLtsGArgs_lts l b hb)
theorem findLtsBounds_lts : ∀ (t : List Bound) (L : List Lt), findLtsBounds t = .ok L →
    LtsOf L (leavesBounds t) (unseenBounds ltsBlind t)
  | [], L, h => by simp only [findLtsBounds, gen_pure_ok] at h; subst h; exact .nil
  | t :: l, L, h => by
    simp only [findLtsBounds, gen_bind_ok, gen_pure_ok] at h
    obtain ⟨a, ha, b, hb, rfl⟩ := h
    exact (findLtsBound_lts t a ha).append (findLtsBounds_lts l b hb)
end

/-! Success. -/

mutual
theorem findLts_ok : ∀ (t : Ty), All LtsSupported (leaves t) → Gen.succeeds (findLts t)
  | .array e _, k => findLts_ok e k
  | .bareFn _ _ _, k => absurd rfl k.head.2
  | .group e, k => findLts_ok e k
  | .implTrait b, k => findLtsBounds_ok b k.tail
  | .infer, k => by simp [findLts]
  | .mac _, k => absurd rfl k.head.1
  | .never, k => by simp [findLts]
  | .paren e, k => findLts_ok e k
  | .path _ s, k => findLtsSegs_ok s k
  | .qpath q _ _ s, k => by
    simp only [findLts, succeeds_bind, succeeds_pure, and_true]
    obtain ⟨a, ha⟩ := findLtsSegs_ok s k.tail.right
    exact ⟨a, ha, findLts_ok q k.tail.left⟩
  | .ptr _ e, k => findLts_ok e k
  | .ref l _ e, k => by
    simp only [findLts, succeeds_bind, succeeds_pure, and_true]; exact findLts_ok e k.right
  | .slice e, k => findLts_ok e k
  | .traitObject b, k => findLtsBounds_ok b k
  | .tuple l, k => findLtsTys_ok l k
  | .verbatim _, k => absurd rfl k.head.1
theorem findLtsSeg_ok : ∀ (t : Seg), All LtsSupported (leavesSeg t) → Gen.succeeds (findLtsSeg t)
  | .mk _ a, k => findLtsArgs_ok a k.tail
theorem findLtsArgs_ok : ∀ (t : Args), All LtsSupported (leavesArgs t) → Gen.succeeds (findLtsArgs t)
  | .none, k => by simp [findLtsArgs]
  | .angle l, k => findLtsGArgs_ok l k
  | .paren i o, k => by simp [findLtsArgs]
theorem findLtsGArg_ok : ∀ (t : GArg), All LtsSupported (leavesGArg t) → Gen.succeeds (findLtsGArg t)
  | .lt l, k => by simp [findLtsGArg]
  | .ty t, k => findLts_ok t k
  | .const _, k => by simp [findLtsGArg]
  | .assocTy _ t, k => findLts_ok t k
  | .assocConst _ _, k => by simp [findLtsGArg]
  | .constraint _ b, k => findLtsBounds_ok b k
theorem findLtsBound_ok : ∀ (t : Bound), All LtsSupported (leavesBound t) → Gen.succeeds (findLtsBound t)
  | .trait _ _ _ s, k => findLtsSegs_ok s k
  | .lt l, k => by simp [findLtsBound]
  | .other _, k => by simp [findLtsBound]
theorem findLtsTys_ok : ∀ (t : List Ty), All LtsSupported (leavesTys t) → Gen.succeeds (findLtsTys t)
  | [], k => by simp [findLtsTys]
  | t :: l, k => by
    simp only [findLtsTys, succeeds_bind, succeeds_pure, and_true]
    obtain ⟨a, ha⟩ := findLts_ok t k.left
    exact ⟨a, ha, findLtsTys_ok l k.right⟩
theorem findLtsSegs_ok : ∀ (t : List Seg), All LtsSupported (leavesSegs t) → Gen.succeeds (findLtsSegs t)
  | [], k => by simp [findLtsSegs]
  | t :: l, k => by
    simp only [findLtsSegs, succeeds_bind, succeeds_pure, and_true]
    obtain ⟨a, ha⟩ := findLtsSeg_ok t k.left
    exact ⟨a, ha, findLtsSegs_ok l k.right⟩
theorem findLtsGArgs_ok : ∀ (t : List GArg), All LtsSupported (leavesGArgs t) → Gen.succeeds (findLtsGArgs t)
  | [], k => by simp [findLtsGArgs]
  | t :: l, k => by
    simp only [findLtsGArgs, succeeds_bind, succeeds_pure, and_true]
    obtain ⟨a, ha⟩ := findLtsGArg_ok t k.left
    exact ⟨a, ha, findLtsGArgs_ok l k.right⟩
theorem findLtsBounds_ok : ∀ (t : List Bound), All LtsSupported (leavesBounds t) → Gen.succeeds (findLtsBounds t)
  | [], k => by simp [findLtsBounds]
  | t :: l, k => by
    simp only [findLtsBounds, succeeds_bind, succeeds_pure, and_true]
    obtain ⟨a, ha⟩ := findLtsBound_ok t k.left
    exact ⟨a, ha, findLtsBounds_ok l k.right⟩
end

end Mockall.Derive
