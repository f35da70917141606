import Verif.Lemmas.Scopes
import Verif.Props.DeriveBuild

/-! # Lifetimes in what is built from a signature -/

namespace Mockall.Props

open Derive Spec

/-! ## Types -/

theorem find_plain {a : Lt} {t : Ty} {L : List Lt} (h : findLts t = .ok L) (hp : PlainLt a t) :
    a ∈ L ↔ a ∈ freeLts t := by
  have k := findLts_lts t L h
  constructor
  · intro ha
    exact (leaf_free a t (k.1 a ha)).resolve_right hp.2
  · intro ha
    exact (k.2 a (free_leaf a t ha)).resolve_right hp.1

/-- What is behind a type, as for `behind`. -/
def behindTy : Ty → Ty
  | .ref lt m e => if lt = some "static" then .ref lt m e else e
  | t => t

theorem behind_ty (t : Ty) : behind (.ty t) = behindTy t := by
  cases t <;> rfl

theorem std_free (l : List Ident) : freeLts (stdPath l) = [] := by
  rw [stdPath, freeLts]
  induction ("std" :: l) with
  | nil => rfl
  | cons i l ih => rw [List.map_cons, freeLtsSegs, ih]; rfl

theorem std_find (l : List Ident) : findLts (stdPath l) = .ok [] := by
  rw [stdPath, findLts]
  induction ("std" :: l) with
  | nil => rfl
  | cons i l ih => rw [List.map_cons, findLtsSegs, ih]; rfl

theorem vec_free (t : Ty) : freeLts (stdVec t) = freeLts t := by
  simp [stdVec, freeLts, freeLtsSegs, freeLtsSeg, freeLtsArgs, freeLtsGArgs, freeLtsGArg, Seg.of]

theorem box_free (t : Ty) : freeLts (.path false [.mk "Box" (.angle [.ty t])]) = freeLts t := by
  simp [freeLts, freeLtsSegs, freeLtsSeg, freeLtsArgs, freeLtsGArgs, freeLtsGArg]

theorem append_nil_bind (x : Gen (List Lt)) : (do let a ← x; return a ++ (← (pure [] : Gen (List Lt)))) = x := by
  cases x with
  | error e => rfl
  | ok a => show Except.ok (a ++ []) = _; rw [List.append_nil]

theorem box_find (i : Ident) (t : Ty) : findLtsSegs [.mk i (.angle [.ty t])] = findLts t := by
  simp only [findLtsSegs, findLtsSeg, findLtsArgs, findLtsGArgs, findLtsGArg]
  rw [append_nil_bind, append_nil_bind]

theorem nil_append_bind (x : Gen (List Lt)) : (do let a ← (pure [] : Gen (List Lt)); return a ++ (← x)) = x := by
  cases x <;> rfl

theorem vec_find (t : Ty) : findLts (stdVec t) = findLts t := by
  rw [stdVec, findLts, findLtsSegs, findLtsSegs, box_find]
  exact (nil_append_bind _).trans (nil_append_bind _)

/-- What is behind the reference that is returned, in the generated code. -/
inductive Owned : Ty → Ty → Prop
  | same (t) : Owned t t
  | paren (lt m t) : Owned (.ref lt m t) (.ref lt m (.paren t))
  | std (n l) : Owned (.name n) (stdPath l)
  | vec (t) : Owned (.slice t) (stdVec t)
  | box (t) : Owned t (.path false [.mk "Box" (.angle [.ty t])])

theorem Owned.free {t u : Ty} (h : Owned t u) : freeLts u = freeLts t := by
  cases h with
  | same => rfl
  | paren => rw [freeLts, freeLts, freeLts]
  | std => rw [std_free]; rfl
  | vec => rw [vec_free, freeLts]
  | box => exact box_free _

theorem Owned.find {t u : Ty} (h : Owned t u) : findLts u = findLts t := by
  cases h with
  | same => rfl
  | paren => rw [findLts, findLts, findLts]
  | std => rw [std_find]; rfl
  | vec => rw [vec_find, findLts]
  | box => rw [findLts, box_find]

theorem dedynify_owned (lt : Option Lt) (m : Bool) (e : Ty) (hs : lt ≠ some "static") :
    ∃ e', (dedynify (.ref lt m e)).1 = .ref lt m e' ∧ ownify (dedynify (.ref lt m e)).1 = e' ∧ Owned e e' := by
  unfold dedynify
  split
  · rename_i heq
    cases heq
    rw [if_neg hs]
    exact ⟨_, rfl, by simp [ownify, hs], .box _⟩
  · exact ⟨e, rfl, by simp [ownify, hs], .same _⟩

theorem destrify_owned (lt : Option Lt) (m : Bool) (e : Ty) (hs : lt ≠ some "static") :
    ∃ e', destrify (.ref lt m e) = .ref lt m e' ∧ Owned e e' ∧ (e' = e ∨ dedynify (.ref lt m e') = (.ref lt m e', false)) := by
  rw [destrify.eq_def]
  dsimp only
  rw [if_neg hs]
  by_cases h : e = .name "CStr"
  · subst h; exact ⟨_, if_pos rfl, .std _ _, .inr rfl⟩
  rw [if_neg h]
  by_cases h : e = .name "OsStr"
  · subst h; exact ⟨_, if_pos rfl, .std _ _, .inr rfl⟩
  rw [if_neg h]
  by_cases h : e = .name "Path"
  · subst h; exact ⟨_, if_pos rfl, .std _ _, .inr rfl⟩
  rw [if_neg h]
  by_cases h : e = .name "str"
  · subst h; exact ⟨_, if_pos rfl, .std _ _, .inr rfl⟩
  rw [if_neg h]
  cases e with
  | slice t => exact ⟨_, rfl, .vec _, .inr rfl⟩
  | _ => exact ⟨_, rfl, .same _, .inl rfl⟩

theorem outputs_owned (t : Ty) : Owned (behindTy t) (outputs t).2.1 ∧ freeLts (outputs t).1 = freeLts t := by
  unfold outputs
  cases t with
  | ref lt m e =>
    by_cases hs : lt = some "static"
    · subst hs
      simp only [destrify, if_true, behindTy]
      unfold dedynify
      split
      · rename_i heq
        cases heq
        simp only [if_true, ownify]
        exact ⟨.paren _ _ _, by rw [freeLts, freeLts, freeLts]⟩
      · simp only [ownify, if_true]
        exact ⟨.same _, trivial⟩
    · have hb : behindTy (.ref lt m e) = e := by simp [behindTy, hs]
      rw [hb]
      obtain ⟨e', h1, h2, h3⟩ := destrify_owned lt m e hs
      rw [h1]
      rcases h3 with rfl | h3
      · obtain ⟨e', h4, h5, h6⟩ := dedynify_owned lt m e' hs
        refine ⟨?_, ?_⟩
        · show Owned _ (ownify _)
          rw [h5]; exact h6
        · show freeLts (dedynify _).1 = _
          rw [h4, freeLts, freeLts, h6.free]
      · rw [h3]
        refine ⟨?_, ?_⟩
        · show Owned _ (ownify (Ty.ref lt m e'))
          simpa [ownify, hs] using h2
        · show freeLts (Ty.ref lt m e') = _
          rw [freeLts, freeLts, h2.free]
  | _ => exact ⟨.same _, rfl⟩

theorem pointee_free {n : Nat} {t t' : Ty} (h : supersuperfy n t = .ok t') :
    freeLts (pointee t') = freeLts (pointee t) := by
  cases t
  case ref l m e =>
    simp only [supersuperfy, gen_bind_ok, gen_pure_ok] at h
    obtain ⟨e', he, rfl⟩ := h
    exact supersuperfy_free e e' he
  all_goals
    have hf := supersuperfy_free _ _ h
    have : pointee t' = t' := by
      have hr := supersuperfy_ref h
      unfold pointee
      split
      · rename_i l m e
        obtain ⟨_, hh⟩ := (hr l m).1 ⟨e, rfl⟩
        cases hh
      · rfl
    rw [this, hf]
    rfl

theorem behindTy_change {n : Nat} {t t' : Ty} (h : supersuperfy n t = .ok t') :
    freeLts (behindTy t') = freeLts (behindTy t) ∧ findLts (behindTy t') = findLts (behindTy t) := by
  cases t
  case ref l m e =>
    have h0 := h
    simp only [supersuperfy, gen_bind_ok, gen_pure_ok] at h
    obtain ⟨e', he, rfl⟩ := h
    simp only [behindTy]
    split
    · exact ⟨supersuperfy_free _ _ h0, supersuperfy_find _ _ h0⟩
    · exact ⟨supersuperfy_free e e' he, supersuperfy_find e e' he⟩
  all_goals
    have hf := supersuperfy_free _ _ h
    have hg := supersuperfy_find _ _ h
    have : behindTy t' = t' := by
      have hr := supersuperfy_ref h
      unfold behindTy
      split
      · rename_i l m e
        obtain ⟨_, hh⟩ := (hr l m).1 ⟨e, rfl⟩
        cases hh
      · rfl
    rw [this, hf, hg]
    exact ⟨rfl, rfl⟩

/-- The types that are returned. -/
theorem build_output {n : Nat} {r : Ret} {o oo : Ty} {bx : Bool} (h : buildOutput n r = .ok (o, oo, bx)) :
    freeLts o = freeLtsRet r ∧ freeLts oo = freeLts (behind r) ∧ findLts oo = findLts (behind r) := by
  cases r with
  | unit =>
    simp only [buildOutput, gen_pure_ok, Prod.mk.injEq] at h
    obtain ⟨rfl, rfl, rfl⟩ := h
    exact ⟨rfl, rfl, rfl⟩
  | ty t =>
    simp only [buildOutput, gen_bind_ok, gen_pure_ok] at h
    obtain ⟨t', ht, h⟩ := h
    have h1 : o = (outputs t').1 := by rw [h]
    have h2 : oo = (outputs t').2.1 := by rw [h]
    obtain ⟨k1, k2⟩ := outputs_owned t'
    obtain ⟨k3, k4⟩ := behindTy_change ht
    rw [h1, h2, k2, k1.free, k1.find, behind_ty, k3, k4, supersuperfy_free t t' ht, freeLtsRet]
    exact ⟨rfl, rfl, rfl⟩

theorem plainRet_behind {a : Lt} {r : Ret} (h : PlainLtRet a r) : PlainLt a (behind r) := by
  cases r with
  | unit => exact ⟨by simp [Spec.behind, unseen, unseenTys], by simp [Spec.behind, binders, bindersTys]⟩
  | ty t =>
    cases t with
    | ref lt m e =>
      rw [Spec.behind]
      split
      · exact h
      · simpa only [PlainLt, PlainLtRet, unseen, binders] using h
    | _ => exact h

theorem behind_free {a : Lt} {r : Ret} (h : a ∈ freeLts (behind r)) : a ∈ freeLtsRet r := by
  cases r with
  | unit => simp [behind, freeLts, freeLtsTys] at h
  | ty t =>
    cases t with
    | ref lt m e =>
      rw [behind] at h
      split at h
      · exact h
      · rw [freeLtsRet, freeLts]; exact List.mem_append_right _ h
    | _ => exact h

/-! ## Arguments -/

theorem pointee_sub {a : Lt} {t : Ty} (h : a ∈ freeLts (pointee t)) : a ∈ freeLts t := by
  cases t with
  | ref lt m e => rw [freeLts]; exact List.mem_append_right _ h
  | _ => exact h

theorem buildArg_free {n : Nat} {p : Pat} {t : Ty} {c : BArg} (h : buildArg n p t = .ok c) :
    freeLts c.ty = freeLts t ∧ freeLts c.predTy = freeLts (pointee t) ∧ freeLts c.refPredTy = freeLts (pointee t) := by
  simp only [buildArg, gen_bind_ok] at h
  obtain ⟨aty, ha, h⟩ := h
  split at h
  · simp at h
  · have h1 := supersuperfy_free _ _ ha
    have h2 := pointee_free ha
    split at h
    · simp only [gen_pure_ok] at h
      subst h
      refine ⟨h1, h2, ?_⟩
      rw [← h2]; simp [freeLts, pointee]
    · rename_i hn
      simp only [gen_pure_ok] at h
      subst h
      have : pointee aty = aty := by
        unfold pointee
        split
        · exact absurd rfl (hn _ _ _)
        · rfl
      rw [this] at h2
      exact ⟨h1, h2, by rw [← h2]; simp [freeLts]⟩

theorem buildArgs_free {n : Nat} : ∀ {l : List FnArg} {as : List BArg} {st : Bool},
    buildArgs n l = .ok (as, st) →
    as.map (fun c => freeLts c.ty) = (argTypes l).map freeLts ∧
    as.map (fun c => freeLts c.predTy) = (argTypes l).map (fun t => freeLts (pointee t)) ∧
    as.map (fun c => freeLts c.refPredTy) = (argTypes l).map (fun t => freeLts (pointee t))
  | [], as, st, h => by
    simp only [buildArgs, gen_pure_ok, Prod.mk.injEq] at h
    rw [← h.1]
    exact ⟨rfl, rfl, rfl⟩
  | .typed a p t :: l, as, st, h => by
    simp only [buildArgs, gen_bind_ok, gen_pure_ok, Prod.mk.injEq] at h
    obtain ⟨c, hc, ⟨as', st'⟩, hl, rfl, -⟩ := h
    obtain ⟨h1, h2, h3⟩ := buildArgs_free hl
    obtain ⟨k1, k2, k3⟩ := buildArg_free hc
    simp only [argTypes, List.filterMap_cons, List.map_cons, k1, k2, k3] at h1 h2 h3 ⊢
    rw [h1, h2, h3]
    exact ⟨rfl, rfl, rfl⟩
  | .receiver r m c t :: l, as, st, h => by
    simp only [buildArgs, gen_bind_ok, gen_pure_ok, Prod.mk.injEq] at h
    obtain ⟨⟨as', st'⟩, hl, rfl, -⟩ := h
    obtain ⟨h1, h2, h3⟩ := buildArgs_free hl
    exact ⟨h1, h2, h3⟩

theorem mem_of_maps {α β : Type} {f : α → List Lt} {g : β → List Lt} {l : List α} {m : List β}
    (h : l.map f = m.map g) (a : Lt) : (∃ x ∈ l, a ∈ f x) ↔ ∃ y ∈ m, a ∈ g y := by
  have : ∀ {γ : Type} (k : γ → List Lt) (n : List γ), (∃ x ∈ n, a ∈ k x) ↔ ∃ s ∈ n.map k, a ∈ s := by
    intro γ k n
    simp only [List.mem_map]
    constructor
    · rintro ⟨x, hx, ha⟩; exact ⟨_, ⟨x, hx, rfl⟩, ha⟩
    · rintro ⟨_, ⟨x, hx, rfl⟩, ha⟩; exact ⟨x, hx, ha⟩
  exact (this f l).trans (h ▸ (this g m).symm)

theorem argLts_plain {a : Lt} : ∀ {l : List FnArg} {L : List Lt}, argLts l = .ok L →
    (∀ t ∈ argTypes l, PlainLt a t) → (a ∈ L ↔ ArgLt l a ∨ SelfLt l a)
  | [], L, h, _ => by
    simp only [argLts, gen_pure_ok] at h
    subst h
    simp [ArgLt, SelfLt, argTypes]
  | .receiver r m c t :: l, L, h, hp => by
    simp only [argLts, gen_bind_ok, gen_pure_ok] at h
    obtain ⟨b, hb, rfl⟩ := h
    have ih := argLts_plain hb hp
    have hs : SelfLt (.receiver r m c t :: l) a ↔ r = some (some a) ∨ SelfLt l a := by
      simp only [SelfLt, List.mem_cons, FnArg.receiver.injEq]
      constructor
      · rintro ⟨m', c', t', ⟨rfl, -, -, -⟩ | h⟩
        · exact .inl rfl
        · exact .inr ⟨_, _, _, h⟩
      · rintro (rfl | ⟨_, _, _, h⟩)
        · exact ⟨m, c, t, .inl ⟨rfl, rfl, rfl, rfl⟩⟩
        · exact ⟨_, _, _, .inr h⟩
    have ha : ArgLt (.receiver r m c t :: l) a ↔ ArgLt l a := Iff.rfl
    rw [hs, ha, List.mem_append, ih, or_left_comm]
    refine or_congr_right (or_congr_left ?_)
    split
    · simp [eq_comm]
    · rename_i h
      constructor
      · simp
      · intro e; exact absurd e (h a)
  | .typed as p t :: l, L, h, hp => by
    simp only [argLts, gen_bind_ok, gen_pure_ok] at h
    obtain ⟨x, hx, b, hb, rfl⟩ := h
    have ih := argLts_plain hb fun t ht => hp t (List.mem_cons_of_mem _ ht)
    rw [List.mem_append, ih, find_plain hx (hp t List.mem_cons_self)]
    have hs : SelfLt (.typed as p t :: l) a ↔ SelfLt l a := by simp [SelfLt]
    have ha : ArgLt (.typed as p t :: l) a ↔ a ∈ freeLts t ∨ ArgLt l a := by
      simp [ArgLt, argTypes]
    rw [hs, ha, or_assoc]

/-! ## Generics -/

theorem lifetimes_key (g : Generics) (a : Lt) : a ∈ lifetimes g ↔ (ParamKind.lt, a) ∈ g.params.map GParam.key := by
  simp only [lifetimes, ltParams, List.mem_map, List.mem_filterMap]
  constructor
  · rintro ⟨p, ⟨q, hq, e⟩, rfl⟩
    cases q <;> simp only [Option.some.injEq, reduceCtorEq] at e
    subst e
    exact ⟨_, hq, rfl⟩
  · rintro ⟨q, hq, e⟩
    cases q with
    | lt p =>
      simp only [GParam.key, Prod.mk.injEq, true_and] at e
      exact ⟨p, ⟨_, hq, rfl⟩, e⟩
    | ty p => simp [GParam.key] at e
    | const i t => simp [GParam.key] at e

theorem mem_boundLts {g : Generics} {a : Lt} :
    a ∈ boundLts g ↔ (∃ p ∈ g.params, a ∈ freeLtsParam p) ∨ ∃ w ∈ g.preds.getD [], a ∈ freeLtsPred w := by
  simp only [boundLts, List.mem_append, List.mem_flatMap]

theorem split_facts {g tg : Generics} {args : List FnArg} {rt : Ret} {al rl : List LtParam} {P Q : Lt → Prop}
    (hg : Wf g) (h : splitLifetimes g args rt = .ok (tg, al, rl))
    (hA : ∀ A, argLts args = .ok A → ∀ a ∈ lifetimes g, (a ∈ A ↔ P a))
    (hR : ∀ R, retLts rt = .ok R → ∀ a ∈ lifetimes g, (a ∈ R ↔ Q a)) (a : Lt) :
    (a ∈ al.map LtParam.lt ↔ a ∈ lifetimes g ∧ P a ∧ ¬ Q a) ∧ (a ∈ rl.map LtParam.lt ↔ a ∈ lifetimes g ∧ Q a) := by
  cases ha : g.angle with
  | false =>
    rw [C45_no_params g args rt ha] at h
    cases h
    have : lifetimes g = [] := by rw [lifetimes, ltParams, hg ha]; rfl
    simp [this]
  | true =>
    simp only [splitLifetimes, ha, Bool.true_eq_false, if_false, gen_bind_ok, gen_pure_ok,
      Prod.mk.injEq, splitParams_eq] at h
    obtain ⟨A, hA', R, hR', -, rfl, rfl⟩ := h
    have hA := hA A hA' a
    have hR := hR R hR' a
    have hl : lifetimes g = (g.params.filterMap (fun | .lt p => some p | _ => none)).map LtParam.lt := rfl
    constructor
    · constructor
      · intro h
        obtain ⟨p, hp, rfl⟩ := List.mem_map.1 h
        obtain ⟨hp, hq⟩ := List.mem_filter.1 hp
        have hm : p.lt ∈ lifetimes g := hl ▸ List.mem_map_of_mem hp
        simp only [decide_eq_true_eq] at hq
        exact ⟨hm, (hA hm).1 hq.2, fun k => hq.1 ((hR hm).2 k)⟩
      · rintro ⟨hm, hp, hq⟩
        have := hm
        rw [hl] at this
        obtain ⟨p, hp', rfl⟩ := List.mem_map.1 this
        refine List.mem_map_of_mem (List.mem_filter.2 ⟨hp', ?_⟩)
        simp only [decide_eq_true_eq]
        exact ⟨fun k => hq ((hR hm).1 k), (hA hm).2 hp⟩
    · constructor
      · intro h
        obtain ⟨p, hp, rfl⟩ := List.mem_map.1 h
        obtain ⟨hp, hq⟩ := List.mem_filter.1 hp
        have hm : p.lt ∈ lifetimes g := hl ▸ List.mem_map_of_mem hp
        simp only [decide_eq_true_eq] at hq
        exact ⟨hm, (hR hm).1 hq⟩
      · rintro ⟨hm, hq⟩
        have := hm
        rw [hl] at this
        obtain ⟨p, hp', rfl⟩ := List.mem_map.1 this
        refine List.mem_map_of_mem (List.mem_filter.2 ⟨hp', ?_⟩)
        simp only [decide_eq_true_eq]
        exact (hR hm).2 hq

/-- What is kept of generics: no lifetimes, and no new bounds. -/
theorem split_kept {g tg : Generics} {args : List FnArg} {rt : Ret} {al rl : List LtParam}
    (hg : Wf g) (h : splitLifetimes g args rt = .ok (tg, al, rl)) :
    (∀ a, (ParamKind.lt, a) ∉ tg.params.map GParam.key) ∧ (∀ a ∈ boundLts tg, a ∈ boundLts g) ∧
    (∀ p ∈ al, p ∈ ltParams g) ∧ ∀ p ∈ rl, p ∈ ltParams g := by
  cases ha : g.angle with
  | false =>
    rw [C45_no_params g args rt ha] at h
    cases h
    rw [hg ha]
    simp
  | true =>
    obtain ⟨hp, hw, -, hr, -, hl, -, -⟩ := C45_split_partial g args rt tg al rl ha h
    refine ⟨fun a k => ?_, fun a k => ?_, fun p hp => hl.subset hp, fun p hp => hr.subset hp⟩
    · rw [hp] at k
      simp [GParam.key] at k
    · rw [mem_boundLts] at k ⊢
      rcases k with ⟨p, hm, k⟩ | ⟨w, hm, k⟩
      · left
        rw [hp] at hm
        obtain ⟨q, hq, rfl⟩ := List.mem_map.1 hm
        refine ⟨_, ?_, k⟩
        obtain ⟨x, hx, e⟩ := List.mem_filterMap.1 hq
        cases x <;> simp only [Option.some.injEq, reduceCtorEq] at e
        subst e
        exact hx
      · right
        rw [hw] at hm
        split at hm
        · simp at hm
        · exact ⟨w, hm, k⟩

theorem mergeParam_lts (o y : GParam) (a : Lt) (h : a ∈ freeLtsParam (mergeParam o y)) :
    a ∈ freeLtsParam o ∨ a ∈ freeLtsParam y := by
  have happ : ∀ l m : List Bound, freeLtsBounds (l ++ m) = freeLtsBounds l ++ freeLtsBounds m := by
    intro l m
    induction l with
    | nil => rfl
    | cons b l ih => rw [List.cons_append, freeLtsBounds, freeLtsBounds, ih, List.append_assoc]
  cases o with
  | ty o =>
    cases y with
    | ty y =>
      simp only [mergeParam, freeLtsParam] at h ⊢
      split at h
      · rw [happ] at h; exact List.mem_append.1 h
      · exact .inl h
    | lt y => exact .inl h
    | const i t => exact .inl h
  | lt o => exact .inl h
  | const i t => exact .inl h

theorem addParam_lts {y : GParam} {a : Lt} : ∀ {l : List GParam}, (∃ p ∈ addParam y l, a ∈ freeLtsParam p) →
    (∃ p ∈ l, a ∈ freeLtsParam p) ∨ a ∈ freeLtsParam y
  | [], h => by simpa [addParam] using h
  | o :: l, ⟨p, hp, h⟩ => by
    rw [addParam] at hp
    split at hp
    · rcases List.mem_cons.1 hp with rfl | hp
      · rcases mergeParam_lts o y a h with h | h
        · exact .inl ⟨o, List.mem_cons_self, h⟩
        · exact .inr h
      · exact .inl ⟨p, List.mem_cons_of_mem _ hp, h⟩
    · rcases List.mem_cons.1 hp with rfl | hp
      · exact .inl ⟨_, List.mem_cons_self, h⟩
      · rcases addParam_lts ⟨p, hp, h⟩ with ⟨q, hq, h⟩ | h
        · exact .inl ⟨q, List.mem_cons_of_mem _ hq, h⟩
        · exact .inr h

theorem foldl_param_lts {a : Lt} : ∀ {ys xs : List GParam},
    (∃ p ∈ ys.foldl (fun out p => addParam p out) xs, a ∈ freeLtsParam p) →
    (∃ p ∈ xs, a ∈ freeLtsParam p) ∨ ∃ p ∈ ys, a ∈ freeLtsParam p
  | [], xs, h => .inl h
  | y :: ys, xs, h => by
    rw [List.foldl_cons] at h
    rcases foldl_param_lts h with h | ⟨p, hp, h⟩
    · rcases addParam_lts h with h | h
      · exact .inl h
      · exact .inr ⟨y, List.mem_cons_self, h⟩
    · exact .inr ⟨p, List.mem_cons_of_mem _ hp, h⟩

theorem freeLtsBounds_append (l m : List Bound) : freeLtsBounds (l ++ m) = freeLtsBounds l ++ freeLtsBounds m := by
  induction l with
  | nil => rfl
  | cons b l ih => rw [List.cons_append, freeLtsBounds, freeLtsBounds, ih, List.append_assoc]

theorem mergePred_lts {o y : WPred} {a : Lt} (h : a ∈ freeLtsPred (mergePred o y)) (hs : samePred o y = true) :
    a ∈ freeLtsPred o ∨ a ∈ freeLtsPred y := by
  cases o with
  | lt l b => exact .inl h
  | ty lo t bo =>
    cases y with
    | lt l b => exact .inl h
    | ty ly u by' =>
      simp only [samePred, decide_eq_true_eq] at hs
      subst hs
      simp only [mergePred, freeLtsPred, List.mem_filter, decide_eq_true_eq] at h ⊢
      obtain ⟨h, hn⟩ := h
      have ho : a ∉ (lo.getD []).map LtParam.lt := by
        intro k; apply hn
        cases lo with
        | none => simp at k
        | some l => cases ly with
          | none => exact k
          | some m => simp only [Option.getD_some, List.map_append, List.mem_append] at k ⊢; exact .inl k
      have hy : a ∉ (ly.getD []).map LtParam.lt := by
        intro k; apply hn
        cases ly with
        | none => simp at k
        | some l => cases lo with
          | none => exact k
          | some m => simp only [Option.getD_some, List.map_append, List.mem_append] at k ⊢; exact .inr k
      split at h
      · rw [freeLtsBounds_append, ← List.append_assoc] at h
        rcases List.mem_append.1 h with h | h
        · exact .inl ⟨h, ho⟩
        · exact .inr ⟨List.mem_append_right _ h, hy⟩
      · exact .inl ⟨h, ho⟩

theorem addPred_lts {y : WPred} {a : Lt} : ∀ {l : List WPred}, (∃ p ∈ addPred y l, a ∈ freeLtsPred p) →
    (∃ p ∈ l, a ∈ freeLtsPred p) ∨ a ∈ freeLtsPred y
  | [], h => by simpa [addPred] using h
  | o :: l, ⟨p, hp, h⟩ => by
    rw [addPred] at hp
    split at hp
    · rename_i hs
      rcases List.mem_cons.1 hp with rfl | hp
      · rcases mergePred_lts h hs with h | h
        · exact .inl ⟨o, List.mem_cons_self, h⟩
        · exact .inr h
      · exact .inl ⟨p, List.mem_cons_of_mem _ hp, h⟩
    · rcases List.mem_cons.1 hp with rfl | hp
      · exact .inl ⟨_, List.mem_cons_self, h⟩
      · rcases addPred_lts ⟨p, hp, h⟩ with ⟨q, hq, h⟩ | h
        · exact .inl ⟨q, List.mem_cons_of_mem _ hq, h⟩
        · exact .inr h

theorem foldl_pred_lts {a : Lt} : ∀ {ys xs : List WPred},
    (∃ p ∈ ys.foldl (fun out p => addPred p out) xs, a ∈ freeLtsPred p) →
    (∃ p ∈ xs, a ∈ freeLtsPred p) ∨ ∃ p ∈ ys, a ∈ freeLtsPred p
  | [], xs, h => .inl h
  | y :: ys, xs, h => by
    rw [List.foldl_cons] at h
    rcases foldl_pred_lts h with h | ⟨p, hp, h⟩
    · rcases addPred_lts h with h | h
      · exact .inl h
      · exact .inr ⟨y, List.mem_cons_self, h⟩
    · exact .inr ⟨p, List.mem_cons_of_mem _ hp, h⟩

theorem merge_boundLts {x y : Generics} {a : Lt} (h : a ∈ boundLts (mergeGenerics x y)) :
    a ∈ boundLts x ∨ a ∈ boundLts y := by
  rw [mem_boundLts] at h
  rw [mem_boundLts, mem_boundLts]
  rcases h with h | h
  · simp only [mergeGenerics, mergeParams] at h
    split at h
    · exact .inr (.inl h)
    · split at h
      · exact .inl (.inl h)
      · rcases foldl_param_lts h with h | h
        · exact .inl (.inl h)
        · exact .inr (.inl h)
  · have hw : ∀ o w : Option (List WPred), (∃ p ∈ (mergeWhere o w).getD [], a ∈ freeLtsPred p) →
        (∃ p ∈ o.getD [], a ∈ freeLtsPred p) ∨ ∃ p ∈ w.getD [], a ∈ freeLtsPred p := by
      intro o w h
      cases o with
      | none => cases w with
        | none => exact .inl h
        | some w => exact .inr h
      | some o => cases w with
        | none => exact .inl h
        | some w => exact foldl_pred_lts h
    rcases hw _ _ h with h | h
    · rcases mergeParams_preds x y with e | ⟨-, e⟩
      · rw [e] at h; exact .inl (.inr h)
      · rw [e] at h; exact .inr (.inr h)
    · exact .inr (.inr h)

theorem mapM_source {α β : Type} {f : α → Gen β} : ∀ {l : List α} {l' : List β}, l.mapM f = .ok l' → ∀ y ∈ l',
    ∃ x ∈ l, f x = .ok y
  | [], l', h => by
    rw [List.mapM_nil, gen_pure_ok] at h; subst h; simp
  | x :: l, l', h => by
    rw [List.mapM_cons] at h
    simp only [gen_bind_ok, gen_pure_ok] at h
    obtain ⟨y, hy, m, hm, rfl⟩ := h
    intro z hz
    rcases List.mem_cons.1 hz with rfl | hz
    · exact ⟨x, List.mem_cons_self, hy⟩
    · obtain ⟨w, hw, k⟩ := mapM_source hm z hz
      exact ⟨w, List.mem_cons_of_mem _ hw, k⟩

theorem supersuperfyGParam_lts {n : Nat} {p p' : GParam} (h : supersuperfyGParam n p = .ok p') :
    freeLtsParam p' = freeLtsParam p := by
  cases p with
  | ty p =>
    simp only [supersuperfyGParam, gen_bind_ok] at h
    obtain ⟨b, hb, h⟩ := h
    split at h
    · simp only [gen_pure_ok] at h; subst h; exact supersuperfyBounds_free _ _ hb
    · simp only [gen_bind_ok, gen_pure_ok] at h; obtain ⟨_, _, rfl⟩ := h; exact supersuperfyBounds_free _ _ hb
  | lt p => simp only [supersuperfyGParam, gen_pure_ok] at h; subst h; rfl
  | const i t => simp only [supersuperfyGParam, gen_pure_ok] at h; subst h; rfl

theorem supersuperfyWPred_lts {n : Nat} {p p' : WPred} (h : supersuperfyWPred n p = .ok p') :
    freeLtsPred p' = freeLtsPred p := by
  cases p with
  | ty l t b =>
    simp only [supersuperfyWPred, gen_bind_ok, gen_pure_ok] at h
    obtain ⟨t', ht, b', hb, rfl⟩ := h
    rw [freeLtsPred, freeLtsPred, supersuperfy_free _ _ ht, supersuperfyBounds_free _ _ hb]
  | lt l b => simp only [supersuperfyWPred, gen_pure_ok] at h; subst h; rfl

theorem supersuperfyGenerics_lts {n : Nat} {g g' : Generics} (h : supersuperfyGenerics n g = .ok g') {a : Lt}
    (ha : a ∈ boundLts g') : a ∈ boundLts g := by
  rw [mem_boundLts] at ha ⊢
  simp only [supersuperfyGenerics, gen_bind_ok] at h
  obtain ⟨ps, hps, h⟩ := h
  have hp : (∃ p ∈ ps, a ∈ freeLtsParam p) → ∃ p ∈ g.params, a ∈ freeLtsParam p := by
    rintro ⟨p, hp, ha⟩
    obtain ⟨q, hq, k⟩ := mapM_source hps p hp
    exact ⟨q, hq, supersuperfyGParam_lts k ▸ ha⟩
  split at h
  · simp only [gen_pure_ok] at h
    subst h
    rename_i hn
    rcases ha with ha | ⟨w, hw, -⟩
    · exact .inl (hp ha)
    · rw [hn] at hw; simp at hw
  · rename_i l hn
    simp only [gen_bind_ok, gen_pure_ok] at h
    obtain ⟨l', hl, rfl⟩ := h
    rcases ha with ha | ⟨w, hw, ha⟩
    · exact .inl (hp ha)
    · obtain ⟨q, hq, k⟩ := mapM_source hl w hw
      exact .inr ⟨q, by rw [hn]; exact hq, supersuperfyWPred_lts k ▸ ha⟩

theorem ltsToGenerics_lifetimes (l : List LtParam) : lifetimes (ltsToGenerics l) = l.map LtParam.lt := by
  unfold ltsToGenerics
  split
  · rename_i h; rw [h]; rfl
  · have : ∀ m : List LtParam, (m.map GParam.lt).filterMap (fun | .lt p => some p | _ => none) = m := by
      intro m
      induction m with
      | nil => rfl
      | cons p m ih => rw [List.map_cons, List.filterMap_cons, ih]
    exact congrArg (List.map LtParam.lt) (this l)

theorem ltsToGenerics_boundLts {l : List LtParam} (h : ∀ p ∈ l, p.bounds = []) (a : Lt) :
    a ∉ boundLts (ltsToGenerics l) := by
  unfold ltsToGenerics
  split
  · simp [boundLts]
  · simp only [boundLts, Option.getD_none, List.flatMap_nil, List.append_nil, List.mem_flatMap, List.mem_map]
    rintro ⟨_, ⟨p, hp, rfl⟩, k⟩
    rw [freeLtsParam, h p hp] at k
    cases k

end Mockall.Props
