import Verif.Derive.Types
import Verif.Spec.Names
import Verif.Lemmas.Gen

/-! `supersuperfy` and the meaning of paths. -/

namespace Mockall.Derive

open Spec

theorem denoteSegs_eq_map (P : Place) : ∀ s : List Seg, denoteSegs P s = s.map (denoteSeg P)
  | [] => rfl
  | t :: l => by rw [denoteSegs, denoteSegs_eq_map P l, List.map_cons]

theorem denoteSeg_id (P : Place) : ∀ s : Seg, (denoteSeg P s).id = s.id
  | .mk _ _ => rfl

theorem denoteSegs_ids (P : Place) (s : List Seg) : (denoteSegs P s).map Seg.id = s.map Seg.id := by
  rw [denoteSegs_eq_map, List.map_map]
  exact List.map_congr_left fun x _ => denoteSeg_id P x

/-! ## Nested modules -/

theorem nest_path (P : Place) (gens : List Module) :
    (P.nest gens).path = P.path ++ gens.map Module.name := by
  induction gens generalizing P with
  | nil => simp [Place.nest]
  | cons m l ih => simp [Place.nest, ih, Place.inside]

theorem nest_scope (P : Place) (gens : List Module) {x : Ident} (h : Free gens x) :
    (P.nest gens).scope x = P.scope x := by
  induction gens generalizing P with
  | nil => rfl
  | cons m l ih =>
    rw [Place.nest, ih _ fun m hm => h m (List.mem_cons_of_mem _ hm)]
    simp [Place.inside, h m List.mem_cons_self]

theorem climb_supers (path : List Ident) (l : List Ident) (segs : List Seg) :
    climb (path ++ l) (List.replicate l.length (Seg.of "super") ++ segs) = climb path segs := by
  obtain ⟨n, hn⟩ : ∃ n, n = l.length := ⟨_, rfl⟩
  induction n generalizing l with
  | zero => cases l with
    | nil => simp
    | cons a l => simp at hn
  | succ n ih =>
    have hne : l ≠ [] := by rintro rfl; simp at hn
    rw [← hn, List.replicate_succ, List.cons_append, climb, if_pos (by rfl), if_neg (by simp [hne]),
      List.dropLast_append_of_ne_nil hne]
    have := ih l.dropLast (by simp [← hn])
    rwa [List.length_dropLast, ← hn, Nat.add_sub_cancel] at this

theorem named_nest {P : Place} {gens : List Module} {s : Seg} (h : Free gens s.id) (l : List Seg) :
    named (P.nest gens) s l = named P s l := by
  unfold named; rw [nest_scope P gens h]

/-- A path which the code does not look at. -/
theorem resolve_unseen {P : Place} {gens : List Module} {lead : Bool} {segs : List Seg}
    (h : Use.Good gens ⟨false, lead, segs.map Seg.id⟩) :
    resolve (P.nest gens) lead segs = resolve P lead segs := by
  unfold resolve
  cases lead with
  | true => rfl
  | false =>
    simp only [Use.Good, Bool.false_eq_true, if_false] at h
    cases segs with
    | nil => rfl
    | cons s l =>
      simp only [List.map_cons] at h
      split at h
      · cases h
      · rename_i h1
        simp only [if_neg h1, Bool.false_eq_true, if_false]
        split at h
        · rename_i h2; simp [h2]
        · rename_i h2
          simp only [if_neg h2]
          split at h
          · rename_i h3
            simp only [h3, if_true]
            cases l with
            | nil => exact h.elim
            | cons t l =>
              simp only [List.map_cons] at h
              simp only [if_neg h.1, named_nest h.2]
          · rename_i h3
            simp only [if_neg h3, named_nest h]

/-- A path which the code looks at. -/
theorem resolve_seen {P : Place} {gens : List Module} {lead : Bool} {segs : List Seg}
    (h : Use.Good gens ⟨true, lead, segs.map Seg.id⟩) :
    resolve (P.nest gens) lead (addSupers gens.length segs).1 = resolve P lead segs := by
  cases segs with
  | nil => unfold addSupers resolve; rfl
  | cons s l =>
    unfold addSupers
    by_cases hs : s.id = "super"
    · simp only [if_pos hs]
      cases lead with
      | true => simp [Use.Good, hs] at h
      | false =>
        have hr : resolve P false (s :: l) = climb P.path (s :: l) := by
          simp only [resolve]
          rw [if_pos hs]; rfl
        have hn : resolve (P.nest gens) false (List.replicate gens.length (Seg.of "super") ++ s :: l) =
            climb (P.nest gens).path (List.replicate gens.length (Seg.of "super") ++ s :: l) := by
          cases hg : gens.length with
          | zero => simp only [resolve, List.replicate_zero, List.nil_append]; rw [if_pos hs]; rfl
          | succ n =>
            simp only [resolve, List.replicate_succ, List.cons_append]
            rfl
        rw [hr, hn, nest_path]
        have := climb_supers P.path (gens.map Module.name) (s :: l)
        rwa [List.length_map] at this
    · simp only [if_neg hs]
      apply resolve_unseen
      cases lead with
      | true => exact h
      | false =>
        simp only [Use.Good, List.map_cons, Bool.false_eq_true, if_false] at h ⊢
        rw [if_neg hs] at h ⊢
        exact h

/-! ## Whole types -/

/-- All these paths keep their meaning. -/
def Goods (gens : List Module) (l : List Use) : Prop := ∀ u ∈ l, u.Good gens

theorem Goods.left {gens : List Module} {l m : List Use} (h : Goods gens (l ++ m)) : Goods gens l :=
  fun x hx => h x (List.mem_append_left _ hx)

theorem Goods.right {gens : List Module} {l m : List Use} (h : Goods gens (l ++ m)) : Goods gens m :=
  fun x hx => h x (List.mem_append_right _ hx)

theorem Goods.tail {gens : List Module} {x : Use} {l : List Use} (h : Goods gens (x :: l)) :
    Goods gens l := fun x hx => h x (List.mem_cons_of_mem _ hx)

theorem Goods.head {gens : List Module} {x : Use} {l : List Use} (h : Goods gens (x :: l)) :
    x.Good gens := h x List.mem_cons_self

theorem usesSegs_unseen (t : Seg) (l : List Seg) :
    usesSegs false (t :: l) = usesSeg false t ++ usesSegs false l := by
  cases l <;> simp [usesSegs]

theorem denoteExpr_unseen {P : Place} {gens : List Module} (e : Expr)
    (h : Goods gens (Expr.uses e)) : denoteExpr (P.nest gens) e = denoteExpr P e := by
  cases e with
  | other s => rfl
  | path lead segs =>
    have h : Use.Good gens ⟨false, lead, segs⟩ := h _ (by simp [Expr.uses])
    have hm : (segs.map Seg.of).map Seg.id = segs := by
      rw [List.map_map]
      exact (List.map_congr_left (g := id) fun x _ => rfl).trans (List.map_id segs)
    rw [denoteExpr, denoteExpr, resolve_unseen (by rw [hm]; exact h)]

section
variable {P : Place} {gens : List Module}

mutual
theorem denote_unseen : ∀ t : Ty, Goods gens (uses false t) →
    denote (P.nest gens) t = denote P t
  | .array e l, h => by
    rw [denote, denote, denote_unseen e h.left, denoteExpr_unseen l h.right]
  | .bareFn _ i o, h => by
    rw [denote, denote, denoteTys_unseen i h.left, denoteRet_unseen o h.right]
  | .group e, h => by rw [denote, denote, denote_unseen e h]
  | .implTrait b, h => by rw [denote, denote, denoteBounds_unseen b h]
  | .infer, _ => rfl
  | .mac _, _ => rfl
  | .never, _ => rfl
  | .paren e, h => by rw [denote, denote, denote_unseen e h]
  | .path l s, h => by
    rw [denote, denote, denoteSegs_unseen s h.tail,
      resolve_unseen (by rw [denoteSegs_ids]; exact h.head)]
  | .qpath q p l s, h => by
    simp only [uses] at h
    rw [denote, denote, denote_unseen q h.right.left, denoteSegs_unseen s h.right.right]
    split
    · rfl
    · rename_i hp
      have h := h.left
      rw [if_neg hp] at h
      rw [resolve_unseen (by rw [List.map_take, denoteSegs_ids]; exact h.head)]
  | .ptr _ e, h => by rw [denote, denote, denote_unseen e h]
  | .ref _ _ e, h => by rw [denote, denote, denote_unseen e h]
  | .slice e, h => by rw [denote, denote, denote_unseen e h]
  | .traitObject b, h => by rw [denote, denote, denoteBounds_unseen b h]
  | .tuple l, h => by rw [denote, denote, denoteTys_unseen l h]
  | .verbatim _, _ => rfl
theorem denoteRet_unseen : ∀ t : Ret, Goods gens (usesRet false t) →
    denoteRet (P.nest gens) t = denoteRet P t
  | .unit, _ => rfl
  | .ty t, h => by rw [denoteRet, denoteRet, denote_unseen t h]
theorem denoteSeg_unseen : ∀ t : Seg, Goods gens (usesSeg false t) →
    denoteSeg (P.nest gens) t = denoteSeg P t
  | .mk i a, h => by rw [denoteSeg, denoteSeg, denoteArgs_unseen a h]
theorem denoteArgs_unseen : ∀ t : Args, Goods gens (usesArgs false t) →
    denoteArgs (P.nest gens) t = denoteArgs P t
  | .none, _ => rfl
  | .angle l, h => by rw [denoteArgs, denoteArgs, denoteGArgs_unseen l h]
  | .paren i o, h => by
    rw [denoteArgs, denoteArgs, denoteTys_unseen i h.left, denoteRet_unseen o h.right]
theorem denoteGArg_unseen : ∀ t : GArg, Goods gens (usesGArg false t) →
    denoteGArg (P.nest gens) t = denoteGArg P t
  | .lt _, _ => rfl
  | .ty t, h => by rw [denoteGArg, denoteGArg, denote_unseen t h]
  | .const e, h => by rw [denoteGArg, denoteGArg, denoteExpr_unseen e h]
  | .assocTy _ t, h => by rw [denoteGArg, denoteGArg, denote_unseen t h]
  | .assocConst _ e, h => by rw [denoteGArg, denoteGArg, denoteExpr_unseen e h]
  | .constraint _ b, h => by rw [denoteGArg, denoteGArg, denoteBounds_unseen b h]
theorem denoteBound_unseen : ∀ t : Bound, Goods gens (usesBound false t) →
    denoteBound (P.nest gens) t = denoteBound P t
  | .trait _ _ c s, h => by
    rw [denoteBound, denoteBound, denoteSegs_unseen s h.tail,
      resolve_unseen (by rw [denoteSegs_ids]; exact h.head)]
  | .lt _, _ => rfl
  | .other _, _ => rfl
theorem denoteTys_unseen : ∀ t : List Ty, Goods gens (usesTys false t) →
    denoteTys (P.nest gens) t = denoteTys P t
  | [], _ => rfl
  | t :: l, h => by rw [denoteTys, denoteTys, denote_unseen t h.left, denoteTys_unseen l h.right]
theorem denoteSegs_unseen : ∀ t : List Seg, Goods gens (usesSegs false t) →
    denoteSegs (P.nest gens) t = denoteSegs P t
  | [], _ => rfl
  | t :: l, h => by
    rw [usesSegs_unseen] at h
    rw [denoteSegs, denoteSegs, denoteSeg_unseen t h.left, denoteSegs_unseen l h.right]
theorem denoteGArgs_unseen : ∀ t : List GArg, Goods gens (usesGArgs false t) →
    denoteGArgs (P.nest gens) t = denoteGArgs P t
  | [], _ => rfl
  | t :: l, h => by
    rw [denoteGArgs, denoteGArgs, denoteGArg_unseen t h.left, denoteGArgs_unseen l h.right]
theorem denoteBounds_unseen : ∀ t : List Bound, Goods gens (usesBounds false t) →
    denoteBounds (P.nest gens) t = denoteBounds P t
  | [], _ => rfl
  | t :: l, h => by
    rw [denoteBounds, denoteBounds, denoteBound_unseen t h.left, denoteBounds_unseen l h.right]
end

theorem supersuperfyLast_ids {n : Nat} : ∀ {s s' : List Seg}, supersuperfyLast n s = .ok s' →
    s'.map Seg.id = s.map Seg.id
  | [], s', h => by simp only [supersuperfyLast, gen_pure_ok] at h; subst h; rfl
  | [.mk i a], s', h => by
    simp only [supersuperfyLast, gen_bind_ok, gen_pure_ok] at h
    obtain ⟨a', _, rfl⟩ := h
    rfl
  | s :: t :: l, s', h => by
    simp only [supersuperfyLast, gen_bind_ok, gen_pure_ok] at h
    obtain ⟨l', hl, rfl⟩ := h
    rw [List.map_cons, List.map_cons, supersuperfyLast_ids hl]

theorem addSupers_denote (Q : Place) (n : Nat) (s : List Seg) :
    denoteSegs Q (addSupers n s).1 = (addSupers n (denoteSegs Q s)).1 := by
  cases s with
  | nil => rfl
  | cons t l =>
    simp only [addSupers, denoteSegs, denoteSeg_id]
    split
    · rw [denoteSegs_eq_map, List.map_append, ← denoteSegs_eq_map Q (t :: l), denoteSegs]
      congr 1
      rw [List.map_replicate]; rfl
    · rw [denoteSegs]

theorem addSupers_count (Q : Place) (n : Nat) (s : List Seg) :
    (addSupers n (denoteSegs Q s)).2 = (addSupers n s).2 := by
  cases s with
  | nil => rfl
  | cons t l =>
    simp only [addSupers, denoteSegs, denoteSeg_id]
    split <;> rfl

theorem addSupers_take (n p : Nat) (hp : p ≠ 0) (s : List Seg) :
    (addSupers n s).1.take (p + (addSupers n s).2) = (addSupers n (s.take p)).1 := by
  cases s with
  | nil => simp [addSupers]
  | cons t l =>
    obtain ⟨p, rfl⟩ : ∃ q, p = q + 1 := ⟨p - 1, by omega⟩
    simp only [addSupers, List.take_succ_cons]
    split
    · rw [Nat.add_comm, List.take_append]; simp
    · simp

theorem addSupers_drop (n p : Nat) (s : List Seg) :
    (addSupers n s).1.drop (p + (addSupers n s).2) = s.drop p := by
  cases s with
  | nil => simp [addSupers]
  | cons t l =>
    simp only [addSupers]
    split
    · rw [Nat.add_comm, List.drop_append]; simp
    · simp

mutual
theorem supersuperfy_denote : ∀ t t' : Ty, Goods gens (uses true t) →
    supersuperfy gens.length t = .ok t' → denote (P.nest gens) t' = denote P t
  | .array e l, t', k, h => by
    simp only [supersuperfy, gen_bind_ok, gen_pure_ok] at h
    obtain ⟨e', he, rfl⟩ := h
    rw [denote, denote, supersuperfy_denote e e' k.left he, denoteExpr_unseen l k.right]
  | .bareFn l i o, t', k, h => by
    simp only [supersuperfy, gen_bind_ok, gen_pure_ok] at h
    obtain ⟨o', ho, i', hi, rfl⟩ := h
    rw [denote, denote, supersuperfyTys_denote i i' k.left hi,
      supersuperfyRet_denote o o' k.right ho]
  | .group e, t', k, h => by
    simp only [supersuperfy, gen_bind_ok, gen_pure_ok] at h
    obtain ⟨e', he, rfl⟩ := h
    rw [denote, denote, supersuperfy_denote e e' k he]
  | .implTrait b, t', k, h => by
    simp only [supersuperfy, gen_pure_ok] at h
    subst h
    rw [denote, denote, denoteBounds_unseen b k]
  | .infer, t', k, h => by simp only [supersuperfy, gen_pure_ok] at h; subst h; rfl
  | .mac _, t', k, h => by simp [supersuperfy] at h
  | .never, t', k, h => by simp only [supersuperfy, gen_pure_ok] at h; subst h; rfl
  | .paren e, t', k, h => by
    simp only [supersuperfy, gen_bind_ok, gen_pure_ok] at h
    obtain ⟨e', he, rfl⟩ := h
    rw [denote, denote, supersuperfy_denote e e' k he]
  | .path l s, t', k, h => by
    simp only [supersuperfy, gen_bind_ok, gen_pure_ok] at h
    obtain ⟨s', hs, rfl⟩ := h
    rw [denote, denote, addSupers_denote, supersuperfyLast_denote s s' k.tail hs,
      resolve_seen (by rw [denoteSegs_ids]; exact k.head)]
  | .qpath q p l s, t', k, h => by
    simp only [supersuperfy, gen_bind_ok, gen_pure_ok] at h
    obtain ⟨s', hs, q', hq, rfl⟩ := h
    simp only [uses] at k
    have hcount : (addSupers gens.length s').2 = (addSupers gens.length (denoteSegs P s)).2 := by
      rw [← addSupers_count (P.nest gens), supersuperfyLast_denote s s' k.right.right hs]
    rw [denote, denote, supersuperfy_denote q q' k.right.left hq, addSupers_denote,
      supersuperfyLast_denote s s' k.right.right hs]
    by_cases hp : p = 0
    · subst hp
      have hh : ((addSupers gens.length (denoteSegs P s)).1 = denoteSegs P s) ∧
          (addSupers gens.length (denoteSegs P s)).2 = 0 := by
        have k := k.left
        rw [if_pos rfl] at k
        have hns : (s.map Seg.id).head? ≠ some "super" := by
          intro hc
          rw [if_pos hc] at k
          have := k.head
          simp [Use.Good] at this
        cases s with
        | nil => exact ⟨rfl, rfl⟩
        | cons t l =>
          have : t.id ≠ "super" := by simpa using hns
          simp [denoteSegs, addSupers, denoteSeg_id, this]
      rw [hcount, hh.1, hh.2]
      simp
    · have k := k.left
      rw [if_neg hp] at k
      rw [if_neg hp, if_neg (by omega), hcount, addSupers_take _ _ hp, addSupers_drop,
        resolve_seen (by rw [List.map_take, denoteSegs_ids]; exact k.head)]
  | .ptr m e, t', k, h => by
    simp only [supersuperfy, gen_bind_ok, gen_pure_ok] at h
    obtain ⟨e', he, rfl⟩ := h
    rw [denote, denote, supersuperfy_denote e e' k he]
  | .ref l m e, t', k, h => by
    simp only [supersuperfy, gen_bind_ok, gen_pure_ok] at h
    obtain ⟨e', he, rfl⟩ := h
    rw [denote, denote, supersuperfy_denote e e' k he]
  | .slice e, t', k, h => by
    simp only [supersuperfy, gen_bind_ok, gen_pure_ok] at h
    obtain ⟨e', he, rfl⟩ := h
    rw [denote, denote, supersuperfy_denote e e' k he]
  | .traitObject b, t', k, h => by
    simp only [supersuperfy, gen_bind_ok, gen_pure_ok] at h
    obtain ⟨e', he, rfl⟩ := h
    rw [denote, denote, supersuperfyBounds_denote b e' k he]
  | .tuple l, t', k, h => by
    simp only [supersuperfy, gen_bind_ok, gen_pure_ok] at h
    obtain ⟨e', he, rfl⟩ := h
    rw [denote, denote, supersuperfyTys_denote l e' k he]
  | .verbatim _, t', k, h => by simp [supersuperfy] at h
theorem supersuperfyRet_denote : ∀ t t' : Ret, Goods gens (usesRet true t) →
    supersuperfyRet gens.length t = .ok t' → denoteRet (P.nest gens) t' = denoteRet P t
  | .unit, t', k, h => by simp only [supersuperfyRet, gen_pure_ok] at h; subst h; rfl
  | .ty t, t', k, h => by
    simp only [supersuperfyRet, gen_bind_ok, gen_pure_ok] at h
    obtain ⟨e', he, rfl⟩ := h
    rw [denoteRet, denoteRet, supersuperfy_denote t e' k he]
theorem supersuperfyLast_denote : ∀ t t' : List Seg, Goods gens (usesSegs true t) →
    supersuperfyLast gens.length t = .ok t' → denoteSegs (P.nest gens) t' = denoteSegs P t
  | [], t', k, h => by simp only [supersuperfyLast, gen_pure_ok] at h; subst h; rfl
  | [.mk i a], t', k, h => by
    simp only [supersuperfyLast, gen_bind_ok, gen_pure_ok] at h
    obtain ⟨a', ha, rfl⟩ := h
    simp only [denoteSegs, denoteSeg]
    rw [supersuperfyArgs_denote a a' k ha]
  | s :: t :: l, t', k, h => by
    simp only [supersuperfyLast, gen_bind_ok, gen_pure_ok] at h
    obtain ⟨l', hl, rfl⟩ := h
    simp only [usesSegs] at k
    rw [denoteSegs, denoteSegs, denoteSeg_unseen s k.left,
      supersuperfyLast_denote (t :: l) l' k.right hl]
theorem supersuperfyArgs_denote : ∀ t t' : Args, Goods gens (usesArgs true t) →
    supersuperfyArgs gens.length t = .ok t' → denoteArgs (P.nest gens) t' = denoteArgs P t
  | .none, t', k, h => by simp only [supersuperfyArgs, gen_pure_ok] at h; subst h; rfl
  | .angle l, t', k, h => by
    simp only [supersuperfyArgs, gen_bind_ok, gen_pure_ok] at h
    obtain ⟨e', he, rfl⟩ := h
    rw [denoteArgs, denoteArgs, supersuperfyGArgs_denote l e' k he]
  | .paren i o, t', k, h => by
    simp only [supersuperfyArgs, gen_bind_ok, gen_pure_ok] at h
    obtain ⟨i', hi, o', ho, rfl⟩ := h
    rw [denoteArgs, denoteArgs, supersuperfyTys_denote i i' k.left hi,
      supersuperfyRet_denote o o' k.right ho]
theorem supersuperfyGArg_denote : ∀ t t' : GArg, Goods gens (usesGArg true t) →
    supersuperfyGArg gens.length t = .ok t' → denoteGArg (P.nest gens) t' = denoteGArg P t
  | .lt _, t', k, h => by simp only [supersuperfyGArg, gen_pure_ok] at h; subst h; rfl
  | .ty t, t', k, h => by
    simp only [supersuperfyGArg, gen_bind_ok, gen_pure_ok] at h
    obtain ⟨e', he, rfl⟩ := h
    rw [denoteGArg, denoteGArg, supersuperfy_denote t e' k he]
  | .const e, t', k, h => by
    simp only [supersuperfyGArg, gen_pure_ok] at h
    subst h
    rw [denoteGArg, denoteGArg, denoteExpr_unseen e k]
  | .assocTy _ t, t', k, h => by
    simp only [supersuperfyGArg, gen_bind_ok, gen_pure_ok] at h
    obtain ⟨e', he, rfl⟩ := h
    rw [denoteGArg, denoteGArg, supersuperfy_denote t e' k he]
  | .assocConst _ e, t', k, h => by
    simp only [supersuperfyGArg, gen_pure_ok] at h
    subst h
    rw [denoteGArg, denoteGArg, denoteExpr_unseen e k]
  | .constraint _ b, t', k, h => by
    simp only [supersuperfyGArg, gen_bind_ok, gen_pure_ok] at h
    obtain ⟨e', he, rfl⟩ := h
    rw [denoteGArg, denoteGArg, supersuperfyBounds_denote b e' k he]
theorem supersuperfyBound_denote : ∀ t t' : Bound, Goods gens (usesBound true t) →
    supersuperfyBound gens.length t = .ok t' → denoteBound (P.nest gens) t' = denoteBound P t
  | .trait _ _ c s, t', k, h => by
    simp only [supersuperfyBound, gen_bind_ok, gen_pure_ok] at h
    obtain ⟨s', hs, rfl⟩ := h
    rw [denoteBound, denoteBound, addSupers_denote, supersuperfyLast_denote s s' k.tail hs,
      resolve_seen (by rw [denoteSegs_ids]; exact k.head)]
  | .lt _, t', k, h => by simp only [supersuperfyBound, gen_pure_ok] at h; subst h; rfl
  | .other _, t', k, h => by simp only [supersuperfyBound, gen_pure_ok] at h; subst h; rfl
theorem supersuperfyTys_denote : ∀ t t' : List Ty, Goods gens (usesTys true t) →
    supersuperfyTys gens.length t = .ok t' → denoteTys (P.nest gens) t' = denoteTys P t
  | [], t', k, h => by simp only [supersuperfyTys, gen_pure_ok] at h; subst h; rfl
  | t :: l, t', k, h => by
    simp only [supersuperfyTys, gen_bind_ok, gen_pure_ok] at h
    obtain ⟨q', hq, e', he, rfl⟩ := h
    rw [denoteTys, denoteTys, supersuperfy_denote t q' k.left hq,
      supersuperfyTys_denote l e' k.right he]
theorem supersuperfyGArgs_denote : ∀ t t' : List GArg, Goods gens (usesGArgs true t) →
    supersuperfyGArgs gens.length t = .ok t' → denoteGArgs (P.nest gens) t' = denoteGArgs P t
  | [], t', k, h => by simp only [supersuperfyGArgs, gen_pure_ok] at h; subst h; rfl
  | t :: l, t', k, h => by
    simp only [supersuperfyGArgs, gen_bind_ok, gen_pure_ok] at h
    obtain ⟨q', hq, e', he, rfl⟩ := h
    rw [denoteGArgs, denoteGArgs, supersuperfyGArg_denote t q' k.left hq,
      supersuperfyGArgs_denote l e' k.right he]
theorem supersuperfyBounds_denote : ∀ t t' : List Bound, Goods gens (usesBounds true t) →
    supersuperfyBounds gens.length t = .ok t' → denoteBounds (P.nest gens) t' = denoteBounds P t
  | [], t', k, h => by simp only [supersuperfyBounds, gen_pure_ok] at h; subst h; rfl
  | t :: l, t', k, h => by
    simp only [supersuperfyBounds, gen_bind_ok, gen_pure_ok] at h
    obtain ⟨q', hq, e', he, rfl⟩ := h
    rw [denoteBounds, denoteBounds, supersuperfyBound_denote t q' k.left hq,
      supersuperfyBounds_denote l e' k.right he]
end

end

end Mockall.Derive
