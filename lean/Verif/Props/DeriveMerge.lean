import Verif.Derive.Generics
import Verif.Spec.Generics

/-! # C46: merging generics -/

namespace Mockall.Props

open Derive Spec

/-! ## Parameters -/

theorem sameParam_iff (a b : GParam) : sameParam a b = true ↔ GParam.key a = GParam.key b := by
  cases a <;> cases b <;> simp [sameParam, GParam.key]

theorem mergeParam_key (a b : GParam) : GParam.key (mergeParam a b) = GParam.key a := by
  cases a <;> cases b <;> rfl

theorem addParam_keys (y : GParam) : ∀ l : List GParam,
    (addParam y l).map GParam.key =
      l.map GParam.key ++ if GParam.key y ∈ l.map GParam.key then [] else [GParam.key y]
  | [] => by simp [addParam]
  | o :: l => by
    rw [addParam]
    by_cases h : sameParam o y = true
    · rw [if_pos h]
      have := (sameParam_iff o y).1 h
      simp [mergeParam_key, this]
    · rw [if_neg h]
      have h' : ¬ GParam.key y = GParam.key o := fun e => h ((sameParam_iff o y).2 e.symm)
      simp [addParam_keys y l, h']

theorem foldl_keys : ∀ (ys xs : List GParam), (ys.map GParam.key).Nodup →
    (ys.foldl (fun out p => addParam p out) xs).map GParam.key =
      xs.map GParam.key ++ (ys.map GParam.key).filter (fun k => k ∉ xs.map GParam.key)
  | [], xs, _ => by simp
  | y :: ys, xs, h => by
    rw [List.map_cons, List.nodup_cons] at h
    rw [List.foldl_cons, foldl_keys ys _ h.2, addParam_keys]
    have hf : (ys.map GParam.key).filter (fun k => k ∉ xs.map GParam.key ++
        if GParam.key y ∈ xs.map GParam.key then [] else [GParam.key y]) =
        (ys.map GParam.key).filter (fun k => k ∉ xs.map GParam.key) := by
      apply List.filter_congr
      intro k hk
      have hne : k ≠ GParam.key y := fun e => h.1 (e ▸ hk)
      split <;> simp [hne]
    rw [hf, List.map_cons, List.filter_cons]
    by_cases hy : GParam.key y ∈ xs.map GParam.key <;> simp [hy]

/-! What holds of a type parameter's bounds holds for any number of steps. -/

def HasTyBound (l : List GParam) (n : Ident) (b : Bound) : Prop :=
  ∃ p, .ty p ∈ l ∧ p.id = n ∧ b ∈ p.bounds

theorem hasTyBound_cons (o : GParam) (l : List GParam) (n : Ident) (b : Bound) :
    HasTyBound (o :: l) n b ↔ HasTyBound [o] n b ∨ HasTyBound l n b := by
  simp only [HasTyBound, List.mem_cons, List.not_mem_nil, or_false]
  constructor
  · rintro ⟨p, h | h, k⟩
    · exact .inl ⟨p, h, k⟩
    · exact .inr ⟨p, h, k⟩
  · rintro (⟨p, h, k⟩ | ⟨p, h, k⟩)
    · exact ⟨p, .inl h, k⟩
    · exact ⟨p, .inr h, k⟩

theorem mergeParam_bound (o y : GParam) (h : sameParam o y = true) (n : Ident) (b : Bound) :
    HasTyBound [mergeParam o y] n b ↔ HasTyBound [o] n b ∨ HasTyBound [y] n b := by
  cases o <;> cases y <;> simp [sameParam] at h <;> simp [mergeParam, HasTyBound]
  rename_i p q
  rw [h]
  split
  · rename_i e; rw [e]; simp
  · simp only [List.mem_append]
    constructor
    · rintro ⟨h, k | k⟩ <;> simp [h, k]
    · rintro (⟨h, k⟩ | ⟨h, k⟩) <;> simp [h, k]

theorem addParam_bound (y : GParam) (n : Ident) (b : Bound) : ∀ l : List GParam,
    HasTyBound (addParam y l) n b ↔ HasTyBound l n b ∨ HasTyBound [y] n b
  | [] => by simp [addParam, HasTyBound]
  | o :: l => by
    rw [addParam]
    split
    · rename_i h
      rw [hasTyBound_cons, mergeParam_bound o y h, hasTyBound_cons o l]
      constructor
      · rintro ((h | h) | h) <;> simp [h]
      · rintro ((h | h) | h) <;> simp [h]
    · rw [hasTyBound_cons, addParam_bound y n b l, hasTyBound_cons o l, or_assoc]

theorem foldl_bound (n : Ident) (b : Bound) : ∀ ys xs : List GParam,
    HasTyBound (ys.foldl (fun out p => addParam p out) xs) n b ↔
      HasTyBound xs n b ∨ HasTyBound ys n b
  | [], xs => by simp [HasTyBound]
  | y :: ys, xs => by
    rw [List.foldl_cons, foldl_bound n b ys, addParam_bound, hasTyBound_cons y ys, or_assoc]

/-- The parameters of the merged generics. -/
theorem mergeGenerics_params (x y : Generics) (hx : Wf x) (hy : Wf y) :
    (mergeGenerics x y).params = y.params.foldl (fun out p => addParam p out) x.params ∨
      (x.params = [] ∧ (mergeGenerics x y).params = y.params) := by
  simp only [mergeGenerics, mergeParams]
  split
  · rename_i h; exact .inr ⟨hx h.1, rfl⟩
  · split
    · rename_i h; rw [hy h.1]; exact .inl rfl
    · exact .inl rfl

/-! ## Predicates -/

def HasWhere (l : List WPred) (t : Ty) (b : Bound) : Prop :=
  ∃ lo bs, .ty lo t bs ∈ l ∧ b ∈ bs

theorem hasWhere_cons (o : WPred) (l : List WPred) (t : Ty) (b : Bound) :
    HasWhere (o :: l) t b ↔ HasWhere [o] t b ∨ HasWhere l t b := by
  simp only [HasWhere, List.mem_cons, List.not_mem_nil, or_false]
  constructor
  · rintro ⟨p, q, h | h, k⟩
    · exact .inl ⟨p, q, h, k⟩
    · exact .inr ⟨p, q, h, k⟩
  · rintro (⟨p, q, h, k⟩ | ⟨p, q, h, k⟩)
    · exact ⟨p, q, .inl h, k⟩
    · exact ⟨p, q, .inr h, k⟩

theorem mergePred_where (o y : WPred) (h : samePred o y = true) (t : Ty) (b : Bound) :
    HasWhere [mergePred o y] t b ↔ HasWhere [o] t b ∨ HasWhere [y] t b := by
  cases o with
  | lt l bs => cases y <;> simp [samePred] at h <;> simp [mergePred, HasWhere]
  | ty lo u bs =>
    cases y with
    | lt l bs => simp [samePred] at h
    | ty ly v cs =>
      simp only [samePred, decide_eq_true_eq] at h
      subst h
      simp only [mergePred, HasWhere, List.mem_singleton, WPred.ty.injEq]
      constructor
      · rintro ⟨_, _, ⟨-, rfl, rfl⟩, hb⟩
        split at hb
        · rcases List.mem_append.1 hb with hb | hb
          · exact .inl ⟨_, _, ⟨rfl, rfl, rfl⟩, hb⟩
          · exact .inr ⟨_, _, ⟨rfl, rfl, rfl⟩, hb⟩
        · exact .inl ⟨_, _, ⟨rfl, rfl, rfl⟩, hb⟩
      · rintro (⟨_, _, ⟨-, rfl, rfl⟩, hb⟩ | ⟨_, _, ⟨-, rfl, rfl⟩, hb⟩)
        · refine ⟨_, _, ⟨rfl, rfl, rfl⟩, ?_⟩
          split
          · exact List.mem_append_left _ hb
          · exact hb
        · refine ⟨_, _, ⟨rfl, rfl, rfl⟩, ?_⟩
          split
          · exact List.mem_append_right _ hb
          · rename_i e; rw [Classical.not_not.1 e]; exact hb

theorem addPred_where (y : WPred) (t : Ty) (b : Bound) : ∀ l : List WPred,
    HasWhere (addPred y l) t b ↔ HasWhere l t b ∨ HasWhere [y] t b
  | [] => by simp [addPred, HasWhere]
  | o :: l => by
    rw [addPred]
    split
    · rename_i h
      rw [hasWhere_cons, mergePred_where o y h, hasWhere_cons o l]
      constructor
      · rintro ((h | h) | h) <;> simp [h]
      · rintro ((h | h) | h) <;> simp [h]
    · rw [hasWhere_cons, addPred_where y t b l, hasWhere_cons o l, or_assoc]

theorem foldl_where (t : Ty) (b : Bound) : ∀ ys xs : List WPred,
    HasWhere (ys.foldl (fun out p => addPred p out) xs) t b ↔ HasWhere xs t b ∨ HasWhere ys t b
  | [], xs => by simp [HasWhere]
  | y :: ys, xs => by
    rw [List.foldl_cons, foldl_where t b ys, addPred_where, hasWhere_cons y ys, or_assoc]

theorem mergeParams_preds (x y : Generics) :
    (mergeParams x y).preds = x.preds ∨ (x.preds = none ∧ (mergeParams x y).preds = y.preds) := by
  unfold mergeParams
  split
  · rename_i h; exact .inr ⟨h.2, rfl⟩
  · split <;> exact .inl rfl

theorem mergeWhere_where (o y : Option (List WPred)) (t : Ty) (b : Bound) :
    HasWhere ((mergeWhere o y).getD []) t b ↔ HasWhere (o.getD []) t b ∨ HasWhere (y.getD []) t b := by
  cases o <;> cases y <;> simp [mergeWhere, foldl_where] <;> simp [HasWhere]

/-! ## Bound lifetimes of predicates -/

/-- The predicate, under at least the lifetimes `ls`. -/
def Keeps (l : List WPred) (ls : List LtParam) (t : Ty) (b : Bound) : Prop :=
  ∃ lo bs, .ty lo t bs ∈ l ∧ (∀ p ∈ ls, p ∈ lo.getD []) ∧ b ∈ bs

theorem mergePred_keeps {o y : WPred} (h : samePred o y = true) {ls : List LtParam} {t : Ty}
    {b : Bound} (k : Keeps [o] ls t b ∨ Keeps [y] ls t b) : Keeps [mergePred o y] ls t b := by
  cases o with
  | lt l bs =>
    cases y with
    | lt m cs => simp [Keeps] at k
    | ty _ _ _ => simp [samePred] at h
  | ty lo u bs =>
    cases y with
    | lt l bs => simp [samePred] at h
    | ty ly v cs =>
      simp only [samePred, decide_eq_true_eq] at h
      subst h
      simp only [Keeps, List.mem_singleton, WPred.ty.injEq] at k
      simp only [mergePred, Keeps, List.mem_singleton, WPred.ty.injEq]
      rcases k with ⟨_, _, ⟨rfl, rfl, rfl⟩, hl, hb⟩ | ⟨_, _, ⟨rfl, rfl, rfl⟩, hl, hb⟩
      · refine ⟨_, _, ⟨rfl, rfl, rfl⟩, fun p hp => ?_, ?_⟩
        · have := hl p hp
          split
          · exact this
          · simp at this
          · exact List.mem_append_left _ this
        · split
          · exact List.mem_append_left _ hb
          · exact hb
      · refine ⟨_, _, ⟨rfl, rfl, rfl⟩, fun p hp => ?_, ?_⟩
        · have := hl p hp
          split
          · simp at this
          · exact this
          · exact List.mem_append_right _ this
        · split
          · exact List.mem_append_right _ hb
          · rename_i e; rw [Classical.not_not.1 e]; exact hb

theorem keeps_cons {o : WPred} {l : List WPred} {ls : List LtParam} {t : Ty} {b : Bound} :
    Keeps (o :: l) ls t b ↔ Keeps [o] ls t b ∨ Keeps l ls t b := by
  simp only [Keeps, List.mem_cons, List.not_mem_nil, or_false]
  constructor
  · rintro ⟨p, q, h | h, k⟩
    · exact .inl ⟨p, q, h, k⟩
    · exact .inr ⟨p, q, h, k⟩
  · rintro (⟨p, q, h, k⟩ | ⟨p, q, h, k⟩)
    · exact ⟨p, q, .inl h, k⟩
    · exact ⟨p, q, .inr h, k⟩

theorem addPred_keeps {y : WPred} {ls : List LtParam} {t : Ty} {b : Bound} : ∀ {l : List WPred},
    Keeps l ls t b ∨ Keeps [y] ls t b → Keeps (addPred y l) ls t b
  | [], h => by
    rcases h with ⟨_, _, h, _⟩ | h
    · simp at h
    · exact h
  | o :: l, h => by
    rw [addPred]
    rw [keeps_cons] at h
    split
    · rename_i hs
      rw [keeps_cons]
      rcases h with (h | h) | h
      · exact .inl (mergePred_keeps hs (.inl h))
      · exact .inr h
      · exact .inl (mergePred_keeps hs (.inr h))
    · rw [keeps_cons]
      rcases h with (h | h) | h
      · exact .inl h
      · exact .inr (addPred_keeps (.inl h))
      · exact .inr (addPred_keeps (.inr h))

theorem foldl_keeps {ls : List LtParam} {t : Ty} {b : Bound} : ∀ {ys xs : List WPred},
    Keeps xs ls t b ∨ Keeps ys ls t b →
      Keeps (ys.foldl (fun out p => addPred p out) xs) ls t b
  | [], xs, h => by
    rcases h with h | ⟨_, _, h, _⟩
    · exact h
    · simp at h
  | y :: ys, xs, h => by
    rw [List.foldl_cons]
    rw [keeps_cons] at h
    apply foldl_keeps
    rcases h with h | h | h
    · exact .inl (addPred_keeps (.inl h))
    · exact .inl (addPred_keeps (.inr h))
    · exact .inr h

theorem mergeWhere_keeps {o y : Option (List WPred)} {ls : List LtParam} {t : Ty} {b : Bound}
    (h : Keeps (o.getD []) ls t b ∨ Keeps (y.getD []) ls t b) :
    Keeps ((mergeWhere o y).getD []) ls t b := by
  have no : ¬ Keeps [] ls t b := by rintro ⟨_, _, h, _⟩; simp at h
  cases o with
  | none =>
    rcases h with h | h
    · exact absurd h no
    · cases y with
      | none => exact absurd h no
      | some _ => exact h
  | some o =>
    cases y with
    | none =>
      rcases h with h | h
      · exact h
      · exact absurd h no
    | some y => exact foldl_keeps h

/-! ## Lifetimes -/

theorem mem_addParam_left {p y : GParam} : ∀ {l : List GParam}, p ∈ l →
    (∀ q, p ≠ .ty q) → p ∈ addParam y l
  | o :: l, h, hp => by
    rw [addParam]
    split
    · rcases List.mem_cons.1 h with rfl | h
      · have : mergeParam p y = p := by
          cases p with
          | ty q => exact absurd rfl (hp q)
          | _ => rfl
        rw [this]; exact List.mem_cons_self
      · exact List.mem_cons_of_mem _ h
    · rcases List.mem_cons.1 h with rfl | h
      · exact List.mem_cons_self
      · exact List.mem_cons_of_mem _ (mem_addParam_left h hp)

theorem mem_addParam_new {y : GParam} : ∀ {l : List GParam},
    GParam.key y ∉ l.map GParam.key → y ∈ addParam y l
  | [], _ => by simp [addParam]
  | o :: l, h => by
    rw [List.map_cons, List.mem_cons, not_or] at h
    rw [addParam, if_neg (fun e => h.1 ((sameParam_iff o y).1 e).symm)]
    exact List.mem_cons_of_mem _ (mem_addParam_new h.2)

theorem mem_addParam {p y : GParam} : ∀ {l : List GParam}, p ∈ addParam y l → (∀ q, p ≠ .ty q) →
    p ∈ l ∨ (p = y ∧ GParam.key y ∉ l.map GParam.key)
  | [], h, _ => by simp [addParam] at h; simp [h]
  | o :: l, h, hp => by
    rw [addParam] at h
    split at h
    · rcases List.mem_cons.1 h with rfl | h
      · left
        have : mergeParam o y = o := by
          cases o <;> cases y <;> first | rfl | exact absurd rfl (hp _)
        rw [this]; exact List.mem_cons_self
      · exact .inl (List.mem_cons_of_mem _ h)
    · rename_i hs
      rcases List.mem_cons.1 h with rfl | h
      · exact .inl List.mem_cons_self
      · rcases mem_addParam h hp with h | ⟨rfl, h⟩
        · exact .inl (List.mem_cons_of_mem _ h)
        · refine .inr ⟨rfl, ?_⟩
          rw [List.map_cons, List.mem_cons, not_or]
          exact ⟨fun e => hs ((sameParam_iff _ _).2 e.symm), h⟩

theorem foldl_lts {p : GParam} (hp : ∀ q, p ≠ .ty q) : ∀ {ys xs : List GParam},
    (ys.map GParam.key).Nodup →
    (p ∈ ys.foldl (fun out p => addParam p out) xs ↔
      p ∈ xs ∨ (p ∈ ys ∧ GParam.key p ∉ xs.map GParam.key))
  | [], xs, _ => by simp
  | y :: ys, xs, h => by
    rw [List.map_cons, List.nodup_cons] at h
    rw [List.foldl_cons, foldl_lts hp h.2, addParam_keys]
    constructor
    · rintro (k | ⟨k, hk⟩)
      · rcases mem_addParam k hp with k | ⟨rfl, k⟩
        · exact .inl k
        · exact .inr ⟨List.mem_cons_self, k⟩
      · exact .inr ⟨List.mem_cons_of_mem _ k, fun e => hk (List.mem_append_left _ e)⟩
    · rintro (k | ⟨k, hk⟩)
      · exact .inl (mem_addParam_left k hp)
      · rcases List.mem_cons.1 k with rfl | k
        · exact .inl (mem_addParam_new hk)
        · refine .inr ⟨k, fun e => ?_⟩
          rcases List.mem_append.1 e with e | e
          · exact hk e
          · split at e
            · simp at e
            · rw [List.mem_singleton] at e
              exact h.1 (e ▸ List.mem_map_of_mem k)

theorem mem_addPred {l : Lt} {bs : List Lt} {y : WPred} : ∀ {ps : List WPred},
    .lt l bs ∈ addPred y ps → .lt l bs ∈ ps ∨ .lt l bs = y
  | [], h => by simp [addPred] at h; exact .inr h
  | o :: ps, h => by
    rw [addPred] at h
    split at h
    · rcases List.mem_cons.1 h with h | h
      · left
        have : mergePred o y = o := by
          cases o with
          | lt _ _ => rfl
          | ty _ _ _ =>
            cases y with
            | lt _ _ => rfl
            | ty _ _ _ => simp [mergePred] at h
        rw [this] at h; rw [h]; exact List.mem_cons_self
      · exact .inl (List.mem_cons_of_mem _ h)
    · rcases List.mem_cons.1 h with h | h
      · exact .inl (h ▸ List.mem_cons_self)
      · exact (mem_addPred h).imp_left (List.mem_cons_of_mem _)

theorem mem_addPred_left {l : Lt} {bs : List Lt} {y : WPred} : ∀ {ps : List WPred},
    .lt l bs ∈ ps → .lt l bs ∈ addPred y ps
  | o :: ps, h => by
    rw [addPred]
    split
    · rcases List.mem_cons.1 h with rfl | h
      · exact List.mem_cons_self
      · exact List.mem_cons_of_mem _ h
    · rcases List.mem_cons.1 h with rfl | h
      · exact List.mem_cons_self
      · exact List.mem_cons_of_mem _ (mem_addPred_left h)

theorem mem_addPred_new {l : Lt} {bs : List Lt} : ∀ {ps : List WPred},
    (∀ cs, .lt l cs ∉ ps) → .lt l bs ∈ addPred (.lt l bs) ps
  | [], _ => by simp [addPred]
  | o :: ps, h => by
    rw [addPred]
    split
    · rename_i hs
      cases o with
      | ty _ _ _ => simp [samePred] at hs
      | lt m cs =>
        simp only [samePred, decide_eq_true_eq] at hs
        subst hs
        exact absurd List.mem_cons_self (h cs)
    · exact List.mem_cons_of_mem _ (mem_addPred_new fun cs hc => h cs (List.mem_cons_of_mem _ hc))

theorem foldl_lt {l : Lt} {bs : List Lt} : ∀ {ys xs : List WPred},
    .lt l bs ∈ ys.foldl (fun out p => addPred p out) xs → .lt l bs ∈ xs ∨ .lt l bs ∈ ys
  | [], xs, h => .inl h
  | y :: ys, xs, h => by
    rcases foldl_lt (ys := ys) h with h | h
    · rcases mem_addPred h with h | h
      · exact .inl h
      · exact .inr (h ▸ List.mem_cons_self)
    · exact .inr (List.mem_cons_of_mem _ h)

theorem foldl_lt_left {l : Lt} {bs : List Lt} : ∀ {ys xs : List WPred},
    .lt l bs ∈ xs → .lt l bs ∈ ys.foldl (fun out p => addPred p out) xs
  | [], _, h => h
  | _ :: ys, _, h => foldl_lt_left (ys := ys) (mem_addPred_left h)

theorem foldl_lt_right {l : Lt} {bs : List Lt} : ∀ {ys xs : List WPred},
    (∀ cs, .lt l cs ∈ xs → cs = bs) → (∀ cs, .lt l cs ∈ ys → cs = bs) → .lt l bs ∈ ys →
      .lt l bs ∈ ys.foldl (fun out p => addPred p out) xs
  | y :: ys, xs, hx, hy, h => by
    rw [List.foldl_cons]
    by_cases e : .lt l bs ∈ addPred y xs
    · exact foldl_lt_left e
    · rcases List.mem_cons.1 h with rfl | h
      · by_cases k : ∃ cs, .lt l cs ∈ xs
        · obtain ⟨cs, k⟩ := k
          have := hx cs k; subst this
          exact absurd (mem_addPred_left k) e
        · exact absurd (mem_addPred_new fun cs hc => k ⟨cs, hc⟩) e
      · refine foldl_lt_right (ys := ys) (xs := addPred y xs) (fun cs hc => ?_) (fun cs hc => hy cs (List.mem_cons_of_mem _ hc)) h
        rcases mem_addPred hc with hc | hc
        · exact hx cs hc
        · exact hy cs (hc ▸ List.mem_cons_self)

theorem mergeWhere_lt {l : Lt} {bs : List Lt} {o y : Option (List WPred)}
    (h : .lt l bs ∈ (mergeWhere o y).getD []) : .lt l bs ∈ o.getD [] ∨ .lt l bs ∈ y.getD [] := by
  cases o <;> cases y
  · exact .inl h
  · exact .inr h
  · exact .inl h
  · exact foldl_lt h

theorem mergeWhere_lt_left {l : Lt} {bs : List Lt} {o y : Option (List WPred)}
    (h : .lt l bs ∈ o.getD []) : .lt l bs ∈ (mergeWhere o y).getD [] := by
  cases o with
  | none => simp at h
  | some o =>
    cases y with
    | none => exact h
    | some y => exact foldl_lt_left h

theorem mergeWhere_lt_right {l : Lt} {bs : List Lt} {o y : Option (List WPred)}
    (ho : ∀ cs, .lt l cs ∉ o.getD [])
    (hy : ∀ bs bs', .lt l bs ∈ y.getD [] → .lt l bs' ∈ y.getD [] → bs = bs')
    (h : .lt l bs ∈ y.getD []) : .lt l bs ∈ (mergeWhere o y).getD [] := by
  cases y with
  | none => simp at h
  | some y =>
    cases o with
    | none => exact h
    | some o => exact foldl_lt_right (fun cs hc => absurd hc (ho cs)) (fun cs hc => hy _ _ hc h) h

/-! ## The theorems -/

/-- Rust requires the parameters of one list to have different names. -/
def Distinct (g : Generics) : Prop := (declared g).Nodup

/-- C46 (parameters): merging yields the parameters of the first, then those of the second that the
first does not have, in order; so all of both and none twice. -/
theorem C46_params (x y : Generics) (hx : Wf x) (hy : Wf y) (dx : Distinct x) (dy : Distinct y) :
    declared (mergeGenerics x y) =
        declared x ++ (declared y).filter (fun k => k ∉ declared x) ∧
      (declared (mergeGenerics x y)).Nodup ∧
      ∀ k, k ∈ declared (mergeGenerics x y) ↔ k ∈ declared x ∨ k ∈ declared y := by
  have key : declared (mergeGenerics x y) =
      declared x ++ (declared y).filter (fun k => k ∉ declared x) := by
    unfold declared
    rcases mergeGenerics_params x y hx hy with h | ⟨h, k⟩
    · rw [h, foldl_keys _ _ dy]
    · rw [h, k]; simpa using (List.filter_eq_self.2 (by simp)).symm
  refine ⟨key, ?_, fun k => ?_⟩
  · rw [key, List.nodup_append]
    refine ⟨dx, dy.filter _, ?_⟩
    intro a ha b hb e
    subst e
    simp [ha] at hb
  · rw [key, List.mem_append, List.mem_filter]
    by_cases h : k ∈ declared x <;> simp [h]

/-- C46 (bounds of type parameters): exactly those of both. -/
theorem C46_bounds (x y : Generics) (hx : Wf x) (hy : Wf y) (n : Ident) (b : Bound) :
    TyBound (mergeGenerics x y) n b ↔ TyBound x n b ∨ TyBound y n b := by
  show HasTyBound _ n b ↔ HasTyBound _ n b ∨ HasTyBound _ n b
  rcases mergeGenerics_params x y hx hy with h | ⟨h, k⟩
  · rw [h, foldl_bound]
  · rw [h, k]; simp [HasTyBound]

theorem addParam_attr (y : GParam) (n : Ident) (a : String) : ∀ l : List GParam,
    (∃ p, .ty p ∈ addParam y l ∧ p.id = n ∧ a ∈ p.attrs) ↔
      (∃ p, .ty p ∈ l ∧ p.id = n ∧ a ∈ p.attrs) ∨ ∃ p, .ty p = y ∧ p.id = n ∧ a ∈ p.attrs
  | [] => by simp [addParam]
  | o :: l => by
    rw [addParam]
    split
    · rename_i h
      cases o <;> cases y <;> simp [sameParam] at h <;> simp [mergeParam]
      grind
    · have := addParam_attr y n a l
      grind

theorem foldl_attr (n : Ident) (a : String) : ∀ ys xs : List GParam,
    (∃ p, .ty p ∈ ys.foldl (fun out p => addParam p out) xs ∧ p.id = n ∧ a ∈ p.attrs) ↔
      (∃ p, .ty p ∈ xs ∧ p.id = n ∧ a ∈ p.attrs) ∨ ∃ p, .ty p ∈ ys ∧ p.id = n ∧ a ∈ p.attrs
  | [], xs => by simp
  | y :: ys, xs => by
    rw [List.foldl_cons, foldl_attr n a ys, addParam_attr]
    grind

/-- C46 (attributes of type parameters): exactly those of both. -/
theorem C46_attrs (x y : Generics) (hx : Wf x) (hy : Wf y) (n : Ident) (a : String) :
    TyAttr (mergeGenerics x y) n a ↔ TyAttr x n a ∨ TyAttr y n a := by
  unfold TyAttr
  rcases mergeGenerics_params x y hx hy with h | ⟨h, k⟩
  · rw [h, foldl_attr]
  · rw [h, k]; simp

def HasDflt (l : List GParam) (n : Ident) (t : Ty) : Prop := ∃ p, .ty p ∈ l ∧ p.id = n ∧ p.dflt = some t

theorem hasDflt_cons (o : GParam) (l : List GParam) (n : Ident) (t : Ty) :
    HasDflt (o :: l) n t ↔ HasDflt [o] n t ∨ HasDflt l n t := by
  simp only [HasDflt, List.mem_cons, List.not_mem_nil, or_false]
  grind

theorem hasDflt_key {l : List GParam} {n : Ident} {t : Ty} (h : HasDflt l n t) : (ParamKind.ty, n) ∈ l.map GParam.key := by
  obtain ⟨p, h, rfl, -⟩ := h
  exact List.mem_map.2 ⟨_, h, rfl⟩

theorem mergeParam_dflt (o y : GParam) (h : sameParam o y = true) (n : Ident) (t : Ty) :
    HasDflt [mergeParam o y] n t ↔ HasDflt [o] n t ∨ (HasDflt [y] n t ∧ ∀ u, ¬ HasDflt [o] n u) := by
  cases o <;> cases y <;> simp [sameParam] at h <;> simp [mergeParam, HasDflt]
  rename_i p q
  rw [← h]
  cases p.dflt <;> simp
  grind

theorem addParam_dflt (y : GParam) (n : Ident) (t : Ty) : ∀ l : List GParam, (l.map GParam.key).Nodup →
    (HasDflt (addParam y l) n t ↔ HasDflt l n t ∨ (HasDflt [y] n t ∧ ∀ u, ¬ HasDflt l n u))
  | [], _ => by simp [addParam, HasDflt]
  | o :: l, hn => by
    rw [List.map_cons, List.nodup_cons] at hn
    rw [addParam]
    split
    · rename_i h
      have key := (sameParam_iff o y).1 h
      have hl : ∀ u v, HasDflt [y] n u → ¬ HasDflt l n v := by
        intro u v h1 h2
        have h1 := hasDflt_key h1
        simp only [List.map_cons, List.map_nil, List.mem_singleton] at h1
        exact hn.1 (by rw [key, ← h1]; exact hasDflt_key h2)
      rw [hasDflt_cons, mergeParam_dflt o y h, hasDflt_cons o l]
      simp only [hasDflt_cons o l]
      grind
    · rename_i h
      have hne : ∀ u v, HasDflt [y] n u → ¬ HasDflt [o] n v := by
        intro u v h1 h2
        have h1 := hasDflt_key h1
        have h2 := hasDflt_key h2
        simp only [List.map_cons, List.map_nil, List.mem_singleton] at h1 h2
        exact h ((sameParam_iff o y).2 (h2.symm.trans h1))
      rw [hasDflt_cons, addParam_dflt y n t l hn.2]
      simp only [hasDflt_cons o l]
      grind

theorem foldl_dflt (n : Ident) (t : Ty) : ∀ ys xs : List GParam, (xs.map GParam.key).Nodup → (ys.map GParam.key).Nodup →
    (HasDflt (ys.foldl (fun out p => addParam p out) xs) n t ↔
      HasDflt xs n t ∨ (HasDflt ys n t ∧ ∀ u, ¬ HasDflt xs n u))
  | [], xs, _, _ => by simp [HasDflt]
  | y :: ys, xs, hx, hy => by
    rw [List.map_cons, List.nodup_cons] at hy
    have hx' : ((addParam y xs).map GParam.key).Nodup := by
      rw [addParam_keys]
      split
      · simpa using hx
      · rename_i h
        rw [List.nodup_append]
        refine ⟨hx, by simp, ?_⟩
        intro a ha b hb e
        rw [List.mem_singleton] at hb
        exact h (by rw [← hb, ← e]; exact ha)
    have hne : ∀ u v, HasDflt [y] n u → ¬ HasDflt ys n v := by
      intro u v h1 h2
      have h1 := hasDflt_key h1
      simp only [List.map_cons, List.map_nil, List.mem_singleton] at h1
      exact hy.1 (by rw [← h1]; exact hasDflt_key h2)
    rw [List.foldl_cons, foldl_dflt n t ys _ hx' hy.2, hasDflt_cons y ys]
    simp only [addParam_dflt y n _ xs hx]
    grind

/-- C46 (defaults of type parameters): that of the first list, or else that of the second. -/
theorem C46_defaults (x y : Generics) (hx : Wf x) (hy : Wf y) (dx : Distinct x) (dy : Distinct y) (n : Ident) (t : Ty) :
    TyDflt (mergeGenerics x y) n t ↔ TyDflt x n t ∨ (TyDflt y n t ∧ ∀ u, ¬ TyDflt x n u) := by
  show HasDflt _ n t ↔ HasDflt _ n t ∨ (HasDflt _ n t ∧ ∀ u, ¬ HasDflt _ n u)
  rcases mergeGenerics_params x y hx hy with h | ⟨h, k⟩
  · rw [h, foldl_dflt n t _ _ dx dy]
  · rw [h, k]; simp [HasDflt]

/-- C46 (where clauses on types): exactly the bounds of both, each under the bound lifetimes it had
(and perhaps more). -/
theorem C46_where (x y : Generics) (t : Ty) (b : Bound) :
    ((∃ ls, WhereTy (mergeGenerics x y) ls t b) ↔
      (∃ ls, WhereTy x ls t b) ∨ ∃ ls, WhereTy y ls t b) ∧
    ∀ ls, WhereTy x ls t b ∨ WhereTy y ls t b →
      ∃ ls', WhereTy (mergeGenerics x y) ls' t b ∧ ∀ p ∈ ls, p ∈ ls' := by
  have e : ∀ g : Generics, (∃ ls, WhereTy g ls t b) ↔ HasWhere (g.preds.getD []) t b := by
    intro g
    constructor
    · rintro ⟨_, lo, bs, h, -, k⟩; exact ⟨lo, bs, h, k⟩
    · rintro ⟨lo, bs, h, k⟩; exact ⟨_, lo, bs, h, rfl, k⟩
  have kp : ∀ (g : Generics) ls, WhereTy g ls t b → Keeps (g.preds.getD []) ls t b := by
    rintro g ls ⟨lo, bs, h, rfl, k⟩; exact ⟨lo, bs, h, fun _ h => h, k⟩
  have pk : ∀ (g : Generics) ls, Keeps (g.preds.getD []) ls t b →
      ∃ ls', WhereTy g ls' t b ∧ ∀ p ∈ ls, p ∈ ls' := by
    rintro g ls ⟨lo, bs, h, hl, k⟩; exact ⟨_, ⟨lo, bs, h, rfl, k⟩, hl⟩
  constructor
  · rw [e, e, e]
    simp only [mergeGenerics, mergeWhere_where]
    rcases mergeParams_preds x y with h | ⟨h, k⟩
    · rw [h]
    · rw [h, k]; simp [HasWhere]
  · intro ls h
    refine pk _ ls (mergeWhere_keeps ?_)
    rcases mergeParams_preds x y with k | ⟨k, k'⟩
    · rw [k]
      exact h.imp (kp x ls) (kp y ls)
    · rw [k']
      rcases h with ⟨lo, bs, h, -⟩ | h
      · simp [k] at h
      · exact .inr (kp y ls h)

/-- C46 (lifetime and constant parameters), as far as it holds: those of the first list keep their
declaration, and so do those of the second that the first does not have.  Missing: the bounds that a
lifetime in both lists has only in the second (`C46_lifetime_bounds_lost`). -/
theorem C46_lifetimes_partial (x y : Generics) (hx : Wf x) (hy : Wf y) (dy : Distinct y) (p : GParam)
    (hp : ∀ q, p ≠ .ty q) :
    p ∈ (mergeGenerics x y).params ↔
      p ∈ x.params ∨ (p ∈ y.params ∧ GParam.key p ∉ declared x) := by
  rcases mergeGenerics_params x y hx hy with h | ⟨h, k⟩
  · rw [h, foldl_lts hp dy]; rfl
  · rw [k, declared, h]; simp

/-- C46 (where clauses on lifetimes), as far as it holds: nothing is invented, and the predicates of the
first list are kept.  Missing: those of the second about a lifetime that has one in the first
(`C46_lifetime_bounds_lost`). -/
theorem C46_where_lifetimes_partial (x y : Generics) (l b : Lt) :
    (WhereLt (mergeGenerics x y) l b → WhereLt x l b ∨ WhereLt y l b) ∧
    (WhereLt x l b → WhereLt (mergeGenerics x y) l b) ∧
    (WhereLt y l b → (∀ bs, .lt l bs ∉ x.preds.getD []) →
      (∀ bs bs', .lt l bs ∈ y.preds.getD [] → .lt l bs' ∈ y.preds.getD [] → bs = bs') →
      WhereLt (mergeGenerics x y) l b) := by
  simp only [WhereLt, mergeGenerics]
  refine ⟨?_, ?_, ?_⟩
  · rintro ⟨bs, h, hb⟩
    rcases mergeParams_preds x y with k | ⟨k, k'⟩
    · rw [k] at h
      exact (mergeWhere_lt h).imp (fun h => ⟨bs, h, hb⟩) fun h => ⟨bs, h, hb⟩
    · rw [k'] at h
      exact .inr ⟨bs, (mergeWhere_lt h).elim id id, hb⟩
  · rintro ⟨bs, h, hb⟩
    rcases mergeParams_preds x y with k | ⟨k, k'⟩
    · rw [k]; exact ⟨bs, mergeWhere_lt_left h, hb⟩
    · rw [k] at h; simp at h
  · rintro ⟨bs, h, hb⟩ hx hy
    rcases mergeParams_preds x y with k | ⟨k, k'⟩
    · rw [k]
      exact ⟨bs, mergeWhere_lt_right hx hy h, hb⟩
    · rw [k']
      exact ⟨bs, mergeWhere_lt_left h, hb⟩

/-! ## Where it does not hold -/

/-- `where 'a: 'b` of the impl block and `where 'a: 'c` of the method; `<'a>` and `<'a: 'b>`. -/
theorem C46_lifetime_bounds_lost :
    (∃ x y l b, Wf x ∧ Wf y ∧ Distinct x ∧ Distinct y ∧
      WhereLt y l b ∧ ¬ WhereLt (mergeGenerics x y) l b) ∧
    ∃ x y l b, Wf x ∧ Wf y ∧ Distinct x ∧ Distinct y ∧
      LtBound y l b ∧ ¬ LtBound (mergeGenerics x y) l b := by
  refine ⟨⟨{ angle := true, params := [.lt ⟨"a", []⟩], preds := some [.lt "a" ["b"]] },
    { angle := true, params := [.lt ⟨"c", []⟩], preds := some [.lt "a" ["c"]] }, "a", "c",
    by simp [Wf], by simp [Wf], by unfold Distinct; decide, by unfold Distinct; decide, ⟨["c"], by simp⟩, ?_⟩,
    { angle := true, params := [.lt ⟨"a", []⟩] },
    { angle := true, params := [.lt ⟨"a", ["b"]⟩] }, "a", "b",
    by simp [Wf], by simp [Wf], by unfold Distinct; decide, by unfold Distinct; decide, ⟨_, List.mem_singleton.2 rfl, rfl, by simp⟩, ?_⟩
  · rintro ⟨bs, h, hb⟩
    have e : (mergeGenerics
        { angle := true, params := [.lt ⟨"a", []⟩], preds := some [.lt "a" ["b"]] }
        { angle := true, params := [.lt ⟨"c", []⟩], preds := some [.lt "a" ["c"]] }).preds =
        some [.lt "a" ["b"]] := by decide +kernel
    rw [e] at h
    simp at h; subst h; simp at hb
  · rintro ⟨p, h, -, hb⟩
    have e : (mergeGenerics { angle := true, params := [.lt ⟨"a", []⟩] }
        { angle := true, params := [.lt ⟨"a", ["b"]⟩] }).params = [.lt ⟨"a", []⟩] := by
      decide +kernel
    rw [e] at h
    simp at h; subst h; simp at hb

/-- `T: A<'a>` -/
def hrBound : Bound := .trait false [] false [.mk "A" (.angle [.lt "a"])]

/-- `<T> where for<'a, ..> T: A<'a>`. -/
def hrGenerics (ls : List LtParam) : Generics where
  angle := true
  params := [.ty { id := "T" }]
  preds := some [.ty (some ls) (.name "T") [hrBound]]

/-- Merging with an empty list does not give the other list back: the lifetimes of
`where for<'a> T: A<'a>` are bound twice, `for<'a, 'a>`, which is not Rust. -/
theorem C46_bound_twice :
    mergeGenerics {} (hrGenerics [⟨"a", []⟩]) = hrGenerics [⟨"a", []⟩, ⟨"a", []⟩] := by
  decide +kernel

/-! ## Examples -/

/-- `<'a, T: A, const N: usize> where T: B` and `<T: C, U> where T: D, U: B`. -/
@[reducible] def exX : Generics where
  angle := true
  params := [.lt ⟨"a", []⟩, .ty { id := "T", bounds := [.trait false [] false [.of "A"]] },
    .const "N" (.name "usize")]
  preds := some [.ty none (.name "T") [.trait false [] false [.of "B"]]]

@[reducible] def exY : Generics where
  angle := true
  params := [.ty { id := "T", bounds := [.trait false [] false [.of "C"]] }, .ty { id := "U" }]
  preds := some [.ty none (.name "T") [.trait false [] false [.of "D"]],
    .ty none (.name "U") [.trait false [] false [.of "B"]]]

example : Wf exX ∧ Wf exY ∧ Distinct exX ∧ Distinct exY ∧
    declared (mergeGenerics exX exY) = [(.lt, "a"), (.ty, "T"), (.const, "N"), (.ty, "U")] ∧
    (mergeGenerics exX exY).preds = some
      [.ty none (.name "T") [.trait false [] false [.of "B"], .trait false [] false [.of "D"]],
       .ty none (.name "U") [.trait false [] false [.of "B"]]] := by
  refine ⟨by simp [Wf], by simp [Wf], by unfold Distinct; decide, by unfold Distinct; decide, by decide +kernel, by decide +kernel⟩

example : TyBound (mergeGenerics exX exY) "T" (.trait false [] false [.of "A"]) ∧
    TyBound (mergeGenerics exX exY) "T" (.trait false [] false [.of "C"]) := by
  constructor
  · exact (C46_bounds _ _ (by unfold Wf; decide) (by unfold Wf; decide) _ _).2
      (.inl ⟨_, List.mem_cons_of_mem _ List.mem_cons_self, rfl, List.mem_cons_self⟩)
  · exact (C46_bounds _ _ (by unfold Wf; decide) (by unfold Wf; decide) _ _).2
      (.inr ⟨_, List.mem_cons_self, rfl, List.mem_cons_self⟩)

end Mockall.Props
