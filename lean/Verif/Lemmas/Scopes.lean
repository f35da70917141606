import Verif.Spec.Scopes
import Verif.Lemmas.FindLts

/-! # Lifetimes under the changes of types -/

namespace Mockall.Derive

open Spec

variable {n : Nat}

/-! ## Paths through `super` -/

theorem freeLtsSegs_append : ∀ l m : List Seg, freeLtsSegs (l ++ m) = freeLtsSegs l ++ freeLtsSegs m
  | [], _ => rfl
  | s :: l, m => by rw [List.cons_append, freeLtsSegs, freeLtsSegs, freeLtsSegs_append l m, List.append_assoc]

theorem addSupers_free (n : Nat) (s : List Seg) : freeLtsSegs (addSupers n s).1 = freeLtsSegs s := by
  cases s with
  | nil => rfl
  | cons t l =>
    simp only [addSupers]
    split
    · have : ∀ n, freeLtsSegs (List.replicate n (Seg.of "super")) = [] := by
        intro n
        induction n with
        | zero => rfl
        | succ n ih => rw [List.replicate_succ, freeLtsSegs, ih]; rfl
      rw [freeLtsSegs_append, this, List.nil_append]
    · rfl

theorem addSupers_find (n : Nat) (s : List Seg) : findLtsSegs (addSupers n s).1 = findLtsSegs s := by
  cases s with
  | nil => rfl
  | cons t l =>
    simp only [addSupers]
    split
    · have : ∀ (n : Nat) (m : List Seg), findLtsSegs (List.replicate n (Seg.of "super") ++ m) = findLtsSegs m := by
        intro n m
        induction n with
        | zero => rfl
        | succ n ih =>
          rw [List.replicate_succ, List.cons_append, findLtsSegs, ih]
          cases findLtsSegs m <;> rfl
      rw [this]
    · rfl

mutual
theorem supersuperfy_free : ∀ (t t' : Ty), supersuperfy n t = .ok t' → freeLts t' = freeLts t
  | .array e l, t', h => by
    simp only [supersuperfy, gen_bind_ok, gen_pure_ok] at h
    obtain ⟨e', he, rfl⟩ := h
    rw [freeLts, freeLts, supersuperfy_free e e' he]
  | .group e, t', h => by
    simp only [supersuperfy, gen_bind_ok, gen_pure_ok] at h
    obtain ⟨e', he, rfl⟩ := h
    rw [freeLts, freeLts, supersuperfy_free e e' he]
  | .paren e, t', h => by
    simp only [supersuperfy, gen_bind_ok, gen_pure_ok] at h
    obtain ⟨e', he, rfl⟩ := h
    rw [freeLts, freeLts, supersuperfy_free e e' he]
  | .ptr m e, t', h => by
    simp only [supersuperfy, gen_bind_ok, gen_pure_ok] at h
    obtain ⟨e', he, rfl⟩ := h
    rw [freeLts, freeLts, supersuperfy_free e e' he]
  | .slice e, t', h => by
    simp only [supersuperfy, gen_bind_ok, gen_pure_ok] at h
    obtain ⟨e', he, rfl⟩ := h
    rw [freeLts, freeLts, supersuperfy_free e e' he]
  | .ref l m e, t', h => by
    simp only [supersuperfy, gen_bind_ok, gen_pure_ok] at h
    obtain ⟨e', he, rfl⟩ := h
    rw [freeLts, freeLts, supersuperfy_free e e' he]
  | .bareFn l i r, t', h => by
    simp only [supersuperfy, gen_bind_ok, gen_pure_ok] at h
    obtain ⟨r', hr, i', hi, rfl⟩ := h
    rw [freeLts, freeLts, supersuperfyTys_free i i' hi, supersuperfyRet_free r r' hr]
  | .implTrait b, t', h => by simp only [supersuperfy, gen_pure_ok] at h; subst h; rfl
  | .infer, t', h => by simp only [supersuperfy, gen_pure_ok] at h; subst h; rfl
  | .never, t', h => by simp only [supersuperfy, gen_pure_ok] at h; subst h; rfl
  | .mac _, t', h => by simp [supersuperfy] at h
  | .verbatim _, t', h => by simp [supersuperfy] at h
  | .path l s, t', h => by
    simp only [supersuperfy, gen_bind_ok, gen_pure_ok] at h
    obtain ⟨s', hs, rfl⟩ := h
    rw [freeLts, freeLts, addSupers_free, supersuperfyLast_free s s' hs]
  | .qpath q p l s, t', h => by
    simp only [supersuperfy, gen_bind_ok, gen_pure_ok] at h
    obtain ⟨s', hs, q', hq, rfl⟩ := h
    rw [freeLts, freeLts, addSupers_free, supersuperfyLast_free s s' hs, supersuperfy_free q q' hq]
  | .traitObject b, t', h => by
    simp only [supersuperfy, gen_bind_ok, gen_pure_ok] at h
    obtain ⟨b', hb, rfl⟩ := h
    rw [freeLts, freeLts, supersuperfyBounds_free b b' hb]
  | .tuple l, t', h => by
    simp only [supersuperfy, gen_bind_ok, gen_pure_ok] at h
    obtain ⟨l', hl, rfl⟩ := h
    rw [freeLts, freeLts, supersuperfyTys_free l l' hl]
theorem supersuperfyRet_free : ∀ (t t' : Ret), supersuperfyRet n t = .ok t' → freeLtsRet t' = freeLtsRet t
  | .unit, t', h => by simp only [supersuperfyRet, gen_pure_ok] at h; subst h; rfl
  | .ty t, t', h => by
    simp only [supersuperfyRet, gen_bind_ok, gen_pure_ok] at h
    obtain ⟨e', he, rfl⟩ := h
    rw [freeLtsRet, freeLtsRet, supersuperfy_free t e' he]
theorem supersuperfyLast_free : ∀ (t t' : List Seg), supersuperfyLast n t = .ok t' → freeLtsSegs t' = freeLtsSegs t
  | [], t', h => by simp only [supersuperfyLast, gen_pure_ok] at h; subst h; rfl
  | [.mk i a], t', h => by
    simp only [supersuperfyLast, gen_bind_ok, gen_pure_ok] at h
    obtain ⟨a', ha, rfl⟩ := h
    simp only [freeLtsSegs, freeLtsSeg, supersuperfyArgs_free a a' ha]
  | s :: t :: l, t', h => by
    simp only [supersuperfyLast, gen_bind_ok, gen_pure_ok] at h
    obtain ⟨l', hl, rfl⟩ := h
    rw [freeLtsSegs, freeLtsSegs, supersuperfyLast_free (t :: l) l' hl]
theorem supersuperfyArgs_free : ∀ (t t' : Args), supersuperfyArgs n t = .ok t' → freeLtsArgs t' = freeLtsArgs t
  | .none, t', h => by simp only [supersuperfyArgs, gen_pure_ok] at h; subst h; rfl
  | .angle l, t', h => by
    simp only [supersuperfyArgs, gen_bind_ok, gen_pure_ok] at h
    obtain ⟨l', hl, rfl⟩ := h
    rw [freeLtsArgs, freeLtsArgs, supersuperfyGArgs_free l l' hl]
  | .paren i r, t', h => by
    simp only [supersuperfyArgs, gen_bind_ok, gen_pure_ok] at h
    obtain ⟨i', hi, r', hr, rfl⟩ := h
    rw [freeLtsArgs, freeLtsArgs, supersuperfyTys_free i i' hi, supersuperfyRet_free r r' hr]
theorem supersuperfyGArg_free : ∀ (t t' : GArg), supersuperfyGArg n t = .ok t' → freeLtsGArg t' = freeLtsGArg t
  | .lt l, t', h => by simp only [supersuperfyGArg, gen_pure_ok] at h; subst h; rfl
  | .const l, t', h => by simp only [supersuperfyGArg, gen_pure_ok] at h; subst h; rfl
  | .assocConst l _, t', h => by simp only [supersuperfyGArg, gen_pure_ok] at h; subst h; rfl
  | .ty t, t', h => by
    simp only [supersuperfyGArg, gen_bind_ok, gen_pure_ok] at h
    obtain ⟨e', he, rfl⟩ := h
    rw [freeLtsGArg, freeLtsGArg, supersuperfy_free t e' he]
  | .assocTy i t, t', h => by
    simp only [supersuperfyGArg, gen_bind_ok, gen_pure_ok] at h
    obtain ⟨e', he, rfl⟩ := h
    rw [freeLtsGArg, freeLtsGArg, supersuperfy_free t e' he]
  | .constraint i b, t', h => by
    simp only [supersuperfyGArg, gen_bind_ok, gen_pure_ok] at h
    obtain ⟨b', hb, rfl⟩ := h
    rw [freeLtsGArg, freeLtsGArg, supersuperfyBounds_free b b' hb]
theorem supersuperfyBound_free : ∀ (t t' : Bound), supersuperfyBound n t = .ok t' → freeLtsBound t' = freeLtsBound t
  | .trait m l c s, t', h => by
    simp only [supersuperfyBound, gen_bind_ok, gen_pure_ok] at h
    obtain ⟨s', hs, rfl⟩ := h
    rw [freeLtsBound, freeLtsBound, addSupers_free, supersuperfyLast_free s s' hs]
  | .lt l, t', h => by simp only [supersuperfyBound, gen_pure_ok] at h; subst h; rfl
  | .other l, t', h => by simp only [supersuperfyBound, gen_pure_ok] at h; subst h; rfl
theorem supersuperfyTys_free : ∀ (t t' : List Ty), supersuperfyTys n t = .ok t' → freeLtsTys t' = freeLtsTys t
  | [], t', h => by simp only [supersuperfyTys, gen_pure_ok] at h; subst h; rfl
  | t :: l, t', h => by
    simp only [supersuperfyTys, gen_bind_ok, gen_pure_ok] at h
    obtain ⟨t', ht, l', hl, rfl⟩ := h
    rw [freeLtsTys, freeLtsTys, supersuperfy_free t t' ht, supersuperfyTys_free l l' hl]
theorem supersuperfyGArgs_free : ∀ (t t' : List GArg), supersuperfyGArgs n t = .ok t' → freeLtsGArgs t' = freeLtsGArgs t
  | [], t', h => by simp only [supersuperfyGArgs, gen_pure_ok] at h; subst h; rfl
  | t :: l, t', h => by
    simp only [supersuperfyGArgs, gen_bind_ok, gen_pure_ok] at h
    obtain ⟨t', ht, l', hl, rfl⟩ := h
    rw [freeLtsGArgs, freeLtsGArgs, supersuperfyGArg_free t t' ht, supersuperfyGArgs_free l l' hl]
theorem supersuperfyBounds_free : ∀ (t t' : List Bound), supersuperfyBounds n t = .ok t' → freeLtsBounds t' = freeLtsBounds t
  | [], t', h => by simp only [supersuperfyBounds, gen_pure_ok] at h; subst h; rfl
  | t :: l, t', h => by
    simp only [supersuperfyBounds, gen_bind_ok, gen_pure_ok] at h
    obtain ⟨t', ht, l', hl, rfl⟩ := h
    rw [freeLtsBounds, freeLtsBounds, supersuperfyBound_free t t' ht, supersuperfyBounds_free l l' hl]
end

mutual
theorem supersuperfy_find : ∀ (t t' : Ty), supersuperfy n t = .ok t' → findLts t' = findLts t
  | .array e l, t', h => by
    simp only [supersuperfy, gen_bind_ok, gen_pure_ok] at h
    obtain ⟨e', he, rfl⟩ := h
    rw [findLts, findLts, supersuperfy_find e e' he]
  | .group e, t', h => by
    simp only [supersuperfy, gen_bind_ok, gen_pure_ok] at h
    obtain ⟨e', he, rfl⟩ := h
    rw [findLts, findLts, supersuperfy_find e e' he]
  | .paren e, t', h => by
    simp only [supersuperfy, gen_bind_ok, gen_pure_ok] at h
    obtain ⟨e', he, rfl⟩ := h
    rw [findLts, findLts, supersuperfy_find e e' he]
  | .ptr m e, t', h => by
    simp only [supersuperfy, gen_bind_ok, gen_pure_ok] at h
    obtain ⟨e', he, rfl⟩ := h
    rw [findLts, findLts, supersuperfy_find e e' he]
  | .slice e, t', h => by
    simp only [supersuperfy, gen_bind_ok, gen_pure_ok] at h
    obtain ⟨e', he, rfl⟩ := h
    rw [findLts, findLts, supersuperfy_find e e' he]
  | .ref l m e, t', h => by
    simp only [supersuperfy, gen_bind_ok, gen_pure_ok] at h
    obtain ⟨e', he, rfl⟩ := h
    rw [findLts, findLts, supersuperfy_find e e' he]
  | .bareFn l i r, t', h => by
    simp only [supersuperfy, gen_bind_ok, gen_pure_ok] at h
    obtain ⟨r', hr, i', hi, rfl⟩ := h
    rfl
  | .implTrait b, t', h => by simp only [supersuperfy, gen_pure_ok] at h; subst h; rfl
  | .infer, t', h => by simp only [supersuperfy, gen_pure_ok] at h; subst h; rfl
  | .never, t', h => by simp only [supersuperfy, gen_pure_ok] at h; subst h; rfl
  | .mac _, t', h => by simp [supersuperfy] at h
  | .verbatim _, t', h => by simp [supersuperfy] at h
  | .path l s, t', h => by
    simp only [supersuperfy, gen_bind_ok, gen_pure_ok] at h
    obtain ⟨s', hs, rfl⟩ := h
    rw [findLts, findLts, addSupers_find, supersuperfyLast_find s s' hs]
  | .qpath q p l s, t', h => by
    simp only [supersuperfy, gen_bind_ok, gen_pure_ok] at h
    obtain ⟨s', hs, q', hq, rfl⟩ := h
    rw [findLts, findLts, addSupers_find, supersuperfyLast_find s s' hs, supersuperfy_find q q' hq]
  | .traitObject b, t', h => by
    simp only [supersuperfy, gen_bind_ok, gen_pure_ok] at h
    obtain ⟨b', hb, rfl⟩ := h
    rw [findLts, findLts, supersuperfyBounds_find b b' hb]
  | .tuple l, t', h => by
    simp only [supersuperfy, gen_bind_ok, gen_pure_ok] at h
    obtain ⟨l', hl, rfl⟩ := h
    rw [findLts, findLts, supersuperfyTys_find l l' hl]
theorem supersuperfyLast_find : ∀ (t t' : List Seg), supersuperfyLast n t = .ok t' → findLtsSegs t' = findLtsSegs t
  | [], t', h => by simp only [supersuperfyLast, gen_pure_ok] at h; subst h; rfl
  | [.mk i a], t', h => by
    simp only [supersuperfyLast, gen_bind_ok, gen_pure_ok] at h
    obtain ⟨a', ha, rfl⟩ := h
    simp only [findLtsSegs, findLtsSeg, supersuperfyArgs_find a a' ha]
  | s :: t :: l, t', h => by
    simp only [supersuperfyLast, gen_bind_ok, gen_pure_ok] at h
    obtain ⟨l', hl, rfl⟩ := h
    rw [findLtsSegs, findLtsSegs, supersuperfyLast_find (t :: l) l' hl]
theorem supersuperfyArgs_find : ∀ (t t' : Args), supersuperfyArgs n t = .ok t' → findLtsArgs t' = findLtsArgs t
  | .none, t', h => by simp only [supersuperfyArgs, gen_pure_ok] at h; subst h; rfl
  | .angle l, t', h => by
    simp only [supersuperfyArgs, gen_bind_ok, gen_pure_ok] at h
    obtain ⟨l', hl, rfl⟩ := h
    rw [findLtsArgs, findLtsArgs, supersuperfyGArgs_find l l' hl]
  | .paren i r, t', h => by
    simp only [supersuperfyArgs, gen_bind_ok, gen_pure_ok] at h
    obtain ⟨i', hi, r', hr, rfl⟩ := h
    rfl
theorem supersuperfyGArg_find : ∀ (t t' : GArg), supersuperfyGArg n t = .ok t' → findLtsGArg t' = findLtsGArg t
  | .lt l, t', h => by simp only [supersuperfyGArg, gen_pure_ok] at h; subst h; rfl
  | .const l, t', h => by simp only [supersuperfyGArg, gen_pure_ok] at h; subst h; rfl
  | .assocConst l _, t', h => by simp only [supersuperfyGArg, gen_pure_ok] at h; subst h; rfl
  | .ty t, t', h => by
    simp only [supersuperfyGArg, gen_bind_ok, gen_pure_ok] at h
    obtain ⟨e', he, rfl⟩ := h
    rw [findLtsGArg, findLtsGArg, supersuperfy_find t e' he]
  | .assocTy i t, t', h => by
    simp only [supersuperfyGArg, gen_bind_ok, gen_pure_ok] at h
    obtain ⟨e', he, rfl⟩ := h
    rw [findLtsGArg, findLtsGArg, supersuperfy_find t e' he]
  | .constraint i b, t', h => by
    simp only [supersuperfyGArg, gen_bind_ok, gen_pure_ok] at h
    obtain ⟨b', hb, rfl⟩ := h
    rw [findLtsGArg, findLtsGArg, supersuperfyBounds_find b b' hb]
theorem supersuperfyBound_find : ∀ (t t' : Bound), supersuperfyBound n t = .ok t' → findLtsBound t' = findLtsBound t
  | .trait m l c s, t', h => by
    simp only [supersuperfyBound, gen_bind_ok, gen_pure_ok] at h
    obtain ⟨s', hs, rfl⟩ := h
    rw [findLtsBound, findLtsBound, addSupers_find, supersuperfyLast_find s s' hs]
  | .lt l, t', h => by simp only [supersuperfyBound, gen_pure_ok] at h; subst h; rfl
  | .other l, t', h => by simp only [supersuperfyBound, gen_pure_ok] at h; subst h; rfl
theorem supersuperfyTys_find : ∀ (t t' : List Ty), supersuperfyTys n t = .ok t' → findLtsTys t' = findLtsTys t
  | [], t', h => by simp only [supersuperfyTys, gen_pure_ok] at h; subst h; rfl
  | t :: l, t', h => by
    simp only [supersuperfyTys, gen_bind_ok, gen_pure_ok] at h
    obtain ⟨t', ht, l', hl, rfl⟩ := h
    rw [findLtsTys, findLtsTys, supersuperfy_find t t' ht, supersuperfyTys_find l l' hl]
theorem supersuperfyGArgs_find : ∀ (t t' : List GArg), supersuperfyGArgs n t = .ok t' → findLtsGArgs t' = findLtsGArgs t
  | [], t', h => by simp only [supersuperfyGArgs, gen_pure_ok] at h; subst h; rfl
  | t :: l, t', h => by
    simp only [supersuperfyGArgs, gen_bind_ok, gen_pure_ok] at h
    obtain ⟨t', ht, l', hl, rfl⟩ := h
    rw [findLtsGArgs, findLtsGArgs, supersuperfyGArg_find t t' ht, supersuperfyGArgs_find l l' hl]
theorem supersuperfyBounds_find : ∀ (t t' : List Bound), supersuperfyBounds n t = .ok t' → findLtsBounds t' = findLtsBounds t
  | [], t', h => by simp only [supersuperfyBounds, gen_pure_ok] at h; subst h; rfl
  | t :: l, t', h => by
    simp only [supersuperfyBounds, gen_bind_ok, gen_pure_ok] at h
    obtain ⟨t', ht, l', hl, rfl⟩ := h
    rw [findLtsBounds, findLtsBounds, supersuperfyBound_find t t' ht, supersuperfyBounds_find l l' hl]
end

/-! ## Free lifetimes among all of them -/

set_option linter.unusedSimpArgs false

local macro "lts" : tactic => `(tactic| simp only [freeLts, freeLtsRet, freeLtsSeg, freeLtsArgs,
  freeLtsGArg, freeLtsBound, freeLtsTys, freeLtsSegs, freeLtsGArgs, freeLtsBounds, leaves, binders,
  bindersRet, bindersSeg, bindersArgs, bindersGArg, bindersBound, bindersTys, bindersSegs, bindersGArgs,
  bindersBounds, leavesRet, leavesSeg, leavesArgs, leavesGArg, leavesBound, leavesTys, leavesSegs,
  leavesGArgs, leavesBounds, List.mem_append, List.mem_filter, List.mem_cons, List.mem_map, List.not_mem_nil,
  Leaf.lt.injEq, reduceCtorEq, false_or, or_false, exists_eq_right, decide_eq_true_eq, false_implies,
  imp_self, implies_true] at *)

mutual
theorem free_leaf (a : Lt) : ∀ t : Ty, a ∈ freeLts t → .lt a ∈ leaves t
  | .array e _ => by
    have h0 := free_leaf a e
    lts
    try grind
  | .bareFn ls i o => by
    have h0 := free_leafTys a i
    have h1 := free_leafRet a o
    lts
    try grind
  | .group e => by
    have h0 := free_leaf a e
    lts
    try grind
  | .implTrait b => by
    have h0 := free_leafBounds a b
    lts
    try grind
  | .infer => by
    lts
  | .mac _ => by
    lts
  | .never => by
    lts
  | .paren e => by
    have h0 := free_leaf a e
    lts
    try grind
  | .path _ s => by
    have h0 := free_leafSegs a s
    lts
    try grind
  | .qpath q _ _ s => by
    have h0 := free_leaf a q
    have h1 := free_leafSegs a s
    lts
    try grind
  | .ptr _ e => by
    have h0 := free_leaf a e
    lts
    try grind
  | .ref l _ e => by
    have h0 := free_leaf a e
    lts
    try grind
  | .slice e => by
    have h0 := free_leaf a e
    lts
    try grind
  | .traitObject b => by
    have h0 := free_leafBounds a b
    lts
    try grind
  | .tuple l => by
    have h0 := free_leafTys a l
    lts
    try grind
  | .verbatim _ => by
    lts
theorem free_leafRet (a : Lt) : ∀ t : Ret, a ∈ freeLtsRet t → .lt a ∈ leavesRet t
  | .unit => by
    lts
  | .ty t => by
    have h0 := free_leaf a t
    lts
    try grind
theorem free_leafSeg (a : Lt) : ∀ t : Seg, a ∈ freeLtsSeg t → .lt a ∈ leavesSeg t
  | .mk _ x => by
    have h0 := free_leafArgs a x
    lts
    try grind
theorem free_leafArgs (a : Lt) : ∀ t : Args, a ∈ freeLtsArgs t → .lt a ∈ leavesArgs t
  | .none => by
    lts
  | .angle l => by
    have h0 := free_leafGArgs a l
    lts
    try grind
  | .paren i o => by
    have h0 := free_leafTys a i
    have h1 := free_leafRet a o
    lts
    try grind
theorem free_leafGArg (a : Lt) : ∀ t : GArg, a ∈ freeLtsGArg t → .lt a ∈ leavesGArg t
  | .lt _ => by
    lts
  | .ty t => by
    have h0 := free_leaf a t
    lts
    try grind
  | .const _ => by
    lts
  | .assocTy _ t => by
    have h0 := free_leaf a t
    lts
    try grind
  | .assocConst _ _ => by
    lts
  | .constraint _ b => by
    have h0 := free_leafBounds a b
    lts
    try grind
theorem free_leafBound (a : Lt) : ∀ t : Bound, a ∈ freeLtsBound t → .lt a ∈ leavesBound t
  | .trait _ ls _ s => by
    have h0 := free_leafSegs a s
    lts
    try grind
  | .lt _ => by
    lts
  | .other _ => by
    lts
theorem free_leafTys (a : Lt) : ∀ t : List Ty, a ∈ freeLtsTys t → .lt a ∈ leavesTys t
  | [] => by lts
  | t :: l => by
    have h0 := free_leaf a t
    have h1 := free_leafTys a l
    lts
    try grind
theorem free_leafSegs (a : Lt) : ∀ t : List Seg, a ∈ freeLtsSegs t → .lt a ∈ leavesSegs t
  | [] => by lts
  | t :: l => by
    have h0 := free_leafSeg a t
    have h1 := free_leafSegs a l
    lts
    try grind
theorem free_leafGArgs (a : Lt) : ∀ t : List GArg, a ∈ freeLtsGArgs t → .lt a ∈ leavesGArgs t
  | [] => by lts
  | t :: l => by
    have h0 := free_leafGArg a t
    have h1 := free_leafGArgs a l
    lts
    try grind
theorem free_leafBounds (a : Lt) : ∀ t : List Bound, a ∈ freeLtsBounds t → .lt a ∈ leavesBounds t
  | [] => by lts
  | t :: l => by
    have h0 := free_leafBound a t
    have h1 := free_leafBounds a l
    lts
    try grind
end

mutual
theorem leaf_free (a : Lt) : ∀ t : Ty, .lt a ∈ leaves t → a ∈ freeLts t ∨ a ∈ binders t
  | .array e _ => by
    have h0 := leaf_free a e
    lts
    try grind
  | .bareFn ls i o => by
    have h0 := leaf_freeTys a i
    have h1 := leaf_freeRet a o
    lts
    try grind
  | .group e => by
    have h0 := leaf_free a e
    lts
    try grind
  | .implTrait b => by
    have h0 := leaf_freeBounds a b
    lts
    try grind
  | .infer => by
    lts
  | .mac _ => by
    lts
  | .never => by
    lts
  | .paren e => by
    have h0 := leaf_free a e
    lts
    try grind
  | .path _ s => by
    have h0 := leaf_freeSegs a s
    lts
    try grind
  | .qpath q _ _ s => by
    have h0 := leaf_free a q
    have h1 := leaf_freeSegs a s
    lts
    try grind
  | .ptr _ e => by
    have h0 := leaf_free a e
    lts
    try grind
  | .ref l _ e => by
    have h0 := leaf_free a e
    lts
    try grind
  | .slice e => by
    have h0 := leaf_free a e
    lts
    try grind
  | .traitObject b => by
    have h0 := leaf_freeBounds a b
    lts
    try grind
  | .tuple l => by
    have h0 := leaf_freeTys a l
    lts
    try grind
  | .verbatim _ => by
    lts
theorem leaf_freeRet (a : Lt) : ∀ t : Ret, .lt a ∈ leavesRet t → a ∈ freeLtsRet t ∨ a ∈ bindersRet t
  | .unit => by
    lts
  | .ty t => by
    have h0 := leaf_free a t
    lts
    try grind
theorem leaf_freeSeg (a : Lt) : ∀ t : Seg, .lt a ∈ leavesSeg t → a ∈ freeLtsSeg t ∨ a ∈ bindersSeg t
  | .mk _ x => by
    have h0 := leaf_freeArgs a x
    lts
    try grind
theorem leaf_freeArgs (a : Lt) : ∀ t : Args, .lt a ∈ leavesArgs t → a ∈ freeLtsArgs t ∨ a ∈ bindersArgs t
  | .none => by
    lts
  | .angle l => by
    have h0 := leaf_freeGArgs a l
    lts
    try grind
  | .paren i o => by
    have h0 := leaf_freeTys a i
    have h1 := leaf_freeRet a o
    lts
    try grind
theorem leaf_freeGArg (a : Lt) : ∀ t : GArg, .lt a ∈ leavesGArg t → a ∈ freeLtsGArg t ∨ a ∈ bindersGArg t
  | .lt _ => by
    lts
  | .ty t => by
    have h0 := leaf_free a t
    lts
    try grind
  | .const _ => by
    lts
  | .assocTy _ t => by
    have h0 := leaf_free a t
    lts
    try grind
  | .assocConst _ _ => by
    lts
  | .constraint _ b => by
    have h0 := leaf_freeBounds a b
    lts
    try grind
theorem leaf_freeBound (a : Lt) : ∀ t : Bound, .lt a ∈ leavesBound t → a ∈ freeLtsBound t ∨ a ∈ bindersBound t
  | .trait _ ls _ s => by
    have h0 := leaf_freeSegs a s
    lts
    try grind
  | .lt _ => by
    lts
  | .other _ => by
    lts
theorem leaf_freeTys (a : Lt) : ∀ t : List Ty, .lt a ∈ leavesTys t → a ∈ freeLtsTys t ∨ a ∈ bindersTys t
  | [] => by lts
  | t :: l => by
    have h0 := leaf_free a t
    have h1 := leaf_freeTys a l
    lts
    try grind
theorem leaf_freeSegs (a : Lt) : ∀ t : List Seg, .lt a ∈ leavesSegs t → a ∈ freeLtsSegs t ∨ a ∈ bindersSegs t
  | [] => by lts
  | t :: l => by
    have h0 := leaf_freeSeg a t
    have h1 := leaf_freeSegs a l
    lts
    try grind
theorem leaf_freeGArgs (a : Lt) : ∀ t : List GArg, .lt a ∈ leavesGArgs t → a ∈ freeLtsGArgs t ∨ a ∈ bindersGArgs t
  | [] => by lts
  | t :: l => by
    have h0 := leaf_freeGArg a t
    have h1 := leaf_freeGArgs a l
    lts
    try grind
theorem leaf_freeBounds (a : Lt) : ∀ t : List Bound, .lt a ∈ leavesBounds t → a ∈ freeLtsBounds t ∨ a ∈ bindersBounds t
  | [] => by lts
  | t :: l => by
    have h0 := leaf_freeBound a t
    have h1 := leaf_freeBounds a l
    lts
    try grind
end

end Mockall.Derive
