import Verif.Spec.Args
import Verif.Lemmas.Gen

/-! # C50: closure arguments -/

namespace Mockall.Props

open Derive Spec

theorem name_inj {m n : Ident} (h : Ty.name m = Ty.name n) : m = n := by
  simpa [Ty.name, Seg.of] using h

theorem fnBound_iff (m : Bool) (l : List Lt) (c : Bool) (segs : List Seg) :
    FnBound (.trait m l c segs) ↔ ∃ s, segs.getLast? = some s ∧ s.id ∈ ["Fn", "FnMut", "FnOnce"] := by
  constructor
  · intro h
    generalize hb : Bound.trait m l c segs = b at h
    cases h with
    | mk m' l' c' init id args h =>
      cases hb
      exact ⟨.mk id args, by simp, by simpa [Seg.id] using h⟩
  · rintro ⟨⟨id, args⟩, h, hid⟩
    obtain ⟨init, rfl⟩ := List.getLast?_eq_some_iff.1 h
    exact .mk _ _ _ _ _ _ (by simpa [Seg.id] using hid)

theorem saveFn_ok (i : Ident) (all : List Bound) : ∀ (l : List Bound) (hm hm' : FnMap),
    saveFnTypes i all l hm = .ok hm' →
      (hm' = hm ∧ ∀ b ∈ l, ¬ FnBound b) ∨
      (hm' = (.name i, boxDyn all) :: hm ∧ hm.lookup (.name i) = none ∧ ∃ b ∈ l, FnBound b)
  | [], hm, hm', h => by
    simp only [saveFnTypes, gen_pure_ok] at h
    exact .inl ⟨h.symm, by simp⟩
  | .lt x :: l, hm, hm', h => by
    have no : ¬ FnBound (.lt x) := by intro h; cases h
    rcases saveFn_ok i all l hm hm' h with ⟨e, k⟩ | ⟨e, k, b, hb, hf⟩
    · exact .inl ⟨e, by simpa [no] using k⟩
    · exact .inr ⟨e, k, b, List.mem_cons_of_mem _ hb, hf⟩
  | .other x :: l, hm, hm', h => by
    have no : ¬ FnBound (.other x) := by intro h; cases h
    rcases saveFn_ok i all l hm hm' h with ⟨e, k⟩ | ⟨e, k, b, hb, hf⟩
    · exact .inl ⟨e, by simpa [no] using k⟩
    · exact .inr ⟨e, k, b, List.mem_cons_of_mem _ hb, hf⟩
  | .trait m ls c segs :: l, hm, hm', h => by
    rw [saveFnTypes] at h
    split at h
    · simp at h
    · rename_i s hs
      split at h
      · rename_i hid
        split at h
        · simp at h
        · rename_i hn
          rcases saveFn_ok i all l _ hm' h with ⟨e, -⟩ | ⟨-, k, -⟩
          · exact .inr ⟨e, Option.not_isSome_iff_eq_none.1 hn, _, List.mem_cons_self, (fnBound_iff ..).2 ⟨s, hs, hid⟩⟩
          · simp at k
      · rename_i hid
        have no : ¬ FnBound (.trait m ls c segs) := by
          rw [fnBound_iff]
          rintro ⟨s', hs', h'⟩
          rw [hs] at hs'; cases hs'; exact hid h'
        rcases saveFn_ok i all l hm hm' h with ⟨e, k⟩ | ⟨e, k, b, hb, hf⟩
        · exact .inl ⟨e, by simpa [no] using k⟩
        · exact .inr ⟨e, k, b, List.mem_cons_of_mem _ hb, hf⟩

/-- The map `hm'` extends `hm` by the closures among the lists of bounds `S`. -/
def Extends (hm hm' : FnMap) (S : Ident → List Bound → Prop) : Prop :=
  ∀ t x, hm'.lookup t = some x ↔ hm.lookup t = some x ∨
    ∃ n bs, t = .name n ∧ S n bs ∧ (∃ b ∈ bs, FnBound b) ∧ x = boxDyn bs

theorem saveFn_extends {i : Ident} {all : List Bound} {hm hm' : FnMap}
    (h : saveFnTypes i all all hm = .ok hm') :
    Extends hm hm' fun n bs => n = i ∧ bs = all := by
  intro t x
  rcases saveFn_ok i all all hm hm' h with ⟨rfl, k⟩ | ⟨rfl, k, b, hb, hf⟩
  · refine ⟨.inl, ?_⟩
    rintro (h | ⟨n, bs, -, ⟨-, rfl⟩, ⟨b, hb, hf⟩, -⟩)
    · exact h
    · exact absurd hf (k b hb)
  · rw [List.lookup_cons]
    by_cases e : t = .name i
    · subst e
      simp only [BEq.rfl, k, Option.some.injEq, reduceCtorEq, false_or]
      constructor
      · rintro rfl; exact ⟨i, all, rfl, ⟨rfl, rfl⟩, ⟨b, hb, hf⟩, rfl⟩
      · rintro ⟨n, bs, -, ⟨-, rfl⟩, -, rfl⟩; rfl
    · have : (t == .name i) = false := by simpa using e
      simp only [this]
      refine ⟨.inl, ?_⟩
      rintro (h | ⟨n, bs, rfl, ⟨rfl, -⟩, -⟩)
      · exact h
      · exact absurd rfl e

theorem Extends.trans {a b c : FnMap} {S T : Ident → List Bound → Prop} (h : Extends a b S)
    (k : Extends b c T) : Extends a c fun n bs => S n bs ∨ T n bs := by
  intro t x
  rw [k, h]
  constructor
  · rintro ((h | ⟨n, bs, h, s, k⟩) | ⟨n, bs, h, s, k⟩)
    · exact .inl h
    · exact .inr ⟨n, bs, h, .inl s, k⟩
    · exact .inr ⟨n, bs, h, .inr s, k⟩
  · rintro (h | ⟨n, bs, h, s | s, k⟩)
    · exact .inl (.inl h)
    · exact .inl (.inr ⟨n, bs, h, s, k⟩)
    · exact .inr ⟨n, bs, h, s, k⟩

theorem Extends.refl (a : FnMap) : Extends a a fun _ _ => False := by
  intro t x
  simp

theorem Extends.congr {a b : FnMap} {S T : Ident → List Bound → Prop} (h : Extends a b S)
    (e : ∀ n bs, S n bs ↔ T n bs) : Extends a b T := by
  intro t x
  rw [h]
  simp only [e]

theorem saveParams_extends : ∀ (l : List GParam) (hm hm' : FnMap), saveParams l hm = .ok hm' →
    Extends hm hm' fun n bs => ∃ p, .ty p ∈ l ∧ p.id = n ∧ p.bounds = bs
  | [], hm, hm', h => by
    simp only [saveParams, gen_pure_ok] at h
    subst h
    exact (Extends.refl hm).congr (by simp)
  | .ty p :: l, hm, hm', h => by
    simp only [saveParams, gen_bind_ok] at h
    obtain ⟨m, hp, hl⟩ := h
    refine ((saveFn_extends hp).trans (saveParams_extends l m hm' hl)).congr fun n bs => ?_
    constructor
    · rintro (⟨rfl, rfl⟩ | ⟨q, h, k⟩)
      · exact ⟨p, List.mem_cons_self, rfl, rfl⟩
      · exact ⟨q, List.mem_cons_of_mem _ h, k⟩
    · rintro ⟨q, h, rfl, rfl⟩
      rcases List.mem_cons.1 h with h | h
      · cases h; exact .inl ⟨rfl, rfl⟩
      · exact .inr ⟨q, h, rfl, rfl⟩
  | .lt p :: l, hm, hm', h =>
    (saveParams_extends l hm hm' h).congr (by simp)
  | .const i t :: l, hm, hm', h =>
    (saveParams_extends l hm hm' h).congr (by simp)

theorem asIdent_iff (n : Ident) : ∀ t : Ty, asIdent t = some n ↔ IsName n t
  | .group t => by
    rw [asIdent, asIdent_iff n t]
    exact ⟨.group, fun h => by cases h; assumption⟩
  | .path c s => by
    constructor
    · intro h
      rw [asIdent.eq_def] at h
      split at h
      · rename_i e; cases e
      · rename_i i e
        cases e
        split at h
        · cases h
        · rename_i hk
          cases h
          exact .name (by simpa using hk)
      · cases h
    · intro h
      generalize ht : Ty.path c s = t at h
      cases h with
      | name h =>
        cases ht
        have : n ∉ ["Self", "self", "super", "crate"] := by simpa using h
        rw [asIdent.eq_def]
        exact if_neg this
      | group _ => cases ht
  | .array _ _ | .bareFn _ _ _ | .implTrait _ | .infer | .mac _ | .never | .paren _ | .qpath _ _ _ _
  | .ptr _ _ | .ref _ _ _ | .slice _ | .traitObject _ | .tuple _ | .verbatim _ => by
    constructor
    · intro h; simp [asIdent] at h
    · intro h; cases h

theorem savePreds_extends : ∀ (l : List WPred) (hm hm' : FnMap), savePreds l hm = .ok hm' →
    Extends hm hm' fun n bs => ∃ ls t, .ty ls t bs ∈ l ∧ IsName n t
  | [], hm, hm', h => by
    simp only [savePreds, gen_pure_ok] at h
    subst h
    exact (Extends.refl hm).congr (by simp)
  | .lt x b :: l, hm, hm', h =>
    (savePreds_extends l hm hm' h).congr (by simp)
  | .ty ls t b :: l, hm, hm', h => by
    rw [savePreds] at h
    split at h
    · rename_i i hi
      simp only [gen_bind_ok] at h
      obtain ⟨m, hp, hl⟩ := h
      refine ((saveFn_extends hp).trans (savePreds_extends l m hm' hl)).congr fun n bs => ?_
      constructor
      · rintro (⟨rfl, rfl⟩ | ⟨ls', t', h, k⟩)
        · exact ⟨ls, t, List.mem_cons_self, (asIdent_iff _ _).1 hi⟩
        · exact ⟨ls', t', List.mem_cons_of_mem _ h, k⟩
      · rintro ⟨ls', t', h, k⟩
        rcases List.mem_cons.1 h with h | h
        · cases h
          have := (asIdent_iff _ _).2 k
          rw [hi] at this; cases this
          exact .inl ⟨rfl, rfl⟩
        · exact .inr ⟨ls', t', h, k⟩
    · rename_i hi
      refine (savePreds_extends l hm hm' h).congr fun n bs => ?_
      constructor
      · rintro ⟨ls', t', h, k⟩; exact ⟨ls', t', List.mem_cons_of_mem _ h, k⟩
      · rintro ⟨ls', t', h, k⟩
        rcases List.mem_cons.1 h with h | h
        · cases h
          have := (asIdent_iff _ _).2 k
          rw [hi] at this; cases this
        · exact ⟨ls', t', h, k⟩

/-- The map holds exactly the closure parameters. -/
theorem map_closures {g : Generics} {m hm : FnMap} (hp : saveParams g.params [] = .ok m)
    (hw : savePreds (g.preds.getD []) m = .ok hm) (t x : Ty) :
    hm.lookup t = some x ↔ ∃ n bs, t = .name n ∧ ClosureBy g n bs ∧ x = boxDyn bs := by
  rw [((saveParams_extends _ _ _ hp).trans (savePreds_extends _ _ _ hw)) t x]
  simp only [List.lookup_nil, reduceCtorEq, false_or]
  have e : ∀ n bs, ((∃ p, .ty p ∈ g.params ∧ p.id = n ∧ p.bounds = bs) ∨
      ∃ ls t, .ty ls t bs ∈ g.preds.getD [] ∧ IsName n t) ↔ BoundsOf g n bs := by
    intro n bs
    constructor
    · rintro (⟨p, h, k, rfl⟩ | ⟨ls, t, h, k⟩)
      · exact .param p h k
      · exact .pred ls t bs h k
    · intro h
      cases h with
      | param p h k => exact .inl ⟨p, h, k, rfl⟩
      | pred ls t _ h k => exact .inr ⟨ls, t, h, k⟩
  simp only [e]
  constructor
  · rintro ⟨n, bs, h, k, f, r⟩; exact ⟨n, bs, h, ⟨k, f⟩, r⟩
  · rintro ⟨n, bs, h, ⟨k, f⟩, r⟩; exact ⟨n, bs, h, k, f, r⟩

theorem boxDyn_inj {a b : List Bound} (h : boxDyn a = boxDyn b) : a = b := by
  simpa [boxDyn] using h

theorem removes_iff {g : Generics} {hm : FnMap}
    (H : ∀ t x, hm.lookup t = some x ↔ ∃ n bs, t = .name n ∧ ClosureBy g n bs ∧ x = boxDyn bs)
    (n : Ident) : shouldRemove hm n = true ↔ Closure g n := by
  rw [shouldRemove, Option.isSome_iff_exists]
  constructor
  · rintro ⟨x, hx⟩
    obtain ⟨m, bs, e, h, -⟩ := (H _ _).1 hx
    rw [name_inj e]; exact ⟨bs, h⟩
  · rintro ⟨bs, h⟩
    exact ⟨_, (H _ _).2 ⟨n, bs, rfl, h, rfl⟩⟩

theorem minus_filter {α : Type} (P : α → Prop) (f : α → Bool) : ∀ l : List α,
    (∀ a ∈ l, f a = false ↔ P a) → Minus P l (l.filter f)
  | [], _ => .nil
  | a :: l, h => by
    have ih := minus_filter P f l fun b hb => h b (List.mem_cons_of_mem _ hb)
    have ha := h a List.mem_cons_self
    cases hf : f a with
    | true =>
      rw [List.filter_cons_of_pos hf]
      exact .keep (fun p => by rw [ha.2 p] at hf; cases hf) ih
    | false =>
      rw [List.filter_cons_of_neg (by simp [hf])]
      exact .skip (ha.1 hf) ih

theorem demutifyPat_ok {p p' : Pat} (h : demutifyPat p = .ok p') : SameBinding p p' := by
  cases p with
  | wild => simp [demutifyPat] at h
  | other s => simp [demutifyPat] at h
  | ident r m i sub =>
    rw [demutifyPat] at h
    split at h
    · simp at h
    · split at h
      · simp at h
      · rename_i h1 h2
        simp only [Bool.not_eq_true] at h1 h2
        subst h1 h2
        simp only [gen_pure_ok] at h
        subst h
        exact .mk m i

theorem mapM_pointwise {α β : Type} {f : α → Gen β} {R : α → β → Prop} :
    ∀ {l : List α} {m : List β}, (∀ a ∈ l, ∀ b, f a = .ok b → R a b) → l.mapM f = .ok m →
      Pointwise R l m
  | [], m, _, h => by
    simp only [List.mapM_nil, gen_pure_ok] at h
    subst h; exact .nil
  | a :: l, m, hf, h => by
    simp only [List.mapM_cons, gen_bind_ok, gen_pure_ok] at h
    obtain ⟨b, hb, m', hm, rfl⟩ := h
    exact .cons (hf a List.mem_cons_self b hb)
      (mapM_pointwise (fun a ha => hf a (List.mem_cons_of_mem _ ha)) hm)

section
variable {g : Generics} {hm : FnMap}
  (H : ∀ t x, hm.lookup t = some x ↔ ∃ n bs, t = .name n ∧ ClosureBy g n bs ∧ x = boxDyn bs)
include H

theorem not_closure {t : Ty} (h : hm.lookup t = none) (n : Ident) (hc : Closure g n) :
    t ≠ .name n := by
  rintro rfl
  obtain ⟨bs, hc⟩ := hc
  rw [(H _ _).2 ⟨n, bs, rfl, hc, rfl⟩] at h
  cases h

theorem declosureArg_boxes {a b : FnArg} (h : declosureArg hm a = .ok b) : ArgBoxes g a b := by
  cases a with
  | receiver r m c t =>
    simp only [declosureArg, gen_pure_ok] at h
    subst h; exact .receiver r m c t
  | typed as p t =>
    simp only [declosureArg, gen_bind_ok, gen_pure_ok] at h
    obtain ⟨p', hp, rfl⟩ := h
    refine .typed as p p' t _ (demutifyPat_ok hp) ?_
    cases hl : hm.lookup t with
    | none => exact .other t (not_closure H hl)
    | some x =>
      obtain ⟨n, bs, rfl, hc, rfl⟩ := (H _ _).1 hl
      exact .closure n bs hc

theorem declosureCall_passes : ∀ {l : List FnArg} {m : List (Option CallArg)},
    l.mapM (declosureCall hm) = .ok m →
      ∃ l', Minus (fun a => ¬ IsValueArg a) l l' ∧ Pointwise (Passes g) l' (m.filterMap id)
  | [], m, h => by
    simp only [List.mapM_nil, gen_pure_ok] at h
    subst h; exact ⟨[], .nil, .nil⟩
  | a :: l, m, h => by
    simp only [List.mapM_cons, gen_bind_ok, gen_pure_ok] at h
    obtain ⟨b, hb, m', hm', rfl⟩ := h
    obtain ⟨l', hl, hp⟩ := declosureCall_passes hm'
    cases a with
    | receiver r m c t =>
      simp only [declosureCall, gen_pure_ok] at hb
      subst hb
      exact ⟨l', .skip (by simp [IsValueArg]) hl, by simpa using hp⟩
    | typed as p t =>
      simp only [declosureCall, gen_bind_ok] at hb
      obtain ⟨p', hp', hb⟩ := hb
      have hs := demutifyPat_ok hp'
      cases hs with
      | mk mu i =>
        split at hb
        · rename_i hself
          simp only [gen_pure_ok] at hb
          subst hb
          refine ⟨l', .skip ?_ hl, by simpa using hp⟩
          simpa [IsValueArg, patIsSelf] using hself
        · rename_i hself
          have hv : IsValueArg (.typed as (.ident false mu i false) t) := by
            simpa [IsValueArg, patIsSelf] using hself
          split at hb
          · rename_i hl'
            simp only [gen_pure_ok] at hb
            subst hb
            obtain ⟨x, hx⟩ := Option.isSome_iff_exists.1 hl'
            obtain ⟨n, bs, rfl, hc, -⟩ := (H _ _).1 hx
            refine ⟨_, .keep (fun k => k hv) hl, ?_⟩
            exact .cons (.closure as _ _ n (.mk mu i) ⟨bs, hc⟩) hp
          · rename_i hl'
            simp only [gen_pure_ok] at hb
            subst hb
            refine ⟨_, .keep (fun k => k hv) hl, ?_⟩
            exact .cons (.other as _ _ t (.mk mu i) (not_closure H (Option.not_isSome_iff_eq_none.1 hl'))) hp
end

/-- C50, as far as it holds: the closure parameters and all that is said about them are removed from the
generics, all else stays, in order; an argument whose type is a closure parameter is boxed, all others
stay, in order; and each value is passed on accordingly.  The box has the bounds of the list with `Fn`, of
which there is only one.  Missing: bounds given in another list (`C50_bounds_lost`), the `for<..>` of a
where clause (`C50_for_lost`); and nothing makes sure that the removed parameters are not used otherwise
(`C50_escapes`). -/
theorem C50_closures_partial (g out : Generics) (args outargs : List FnArg) (calls : List CallArg)
    (h : declosurefy g args = .ok (out, outargs, calls)) :
    Minus (ClosureParam g) g.params out.params ∧
    Minus (ClosurePred g) (g.preds.getD []) (out.preds.getD []) ∧
    Pointwise (ArgBoxes g) args outargs ∧
    (∃ vals, Minus (fun a => ¬ IsValueArg a) args vals ∧ Pointwise (Passes g) vals calls) ∧
    ∀ n bs bs', ClosureBy g n bs → ClosureBy g n bs' → bs = bs' := by
  simp only [declosurefy, gen_bind_ok, gen_pure_ok, Prod.mk.injEq] at h
  obtain ⟨m, hp, hm, hw, oa, ho, cs, hc, rfl, rfl, rfl⟩ := h
  have H := fun t x => map_closures hp hw t x
  refine ⟨?_, ?_, mapM_pointwise (fun a _ b hb => declosureArg_boxes H hb) ho,
    declosureCall_passes H hc, ?_⟩
  · refine minus_filter _ _ _ fun p _ => ?_
    cases p with
    | ty q =>
      simp only [keepParam, Bool.not_eq_false', removes_iff H]
      exact ⟨fun h => ⟨q, rfl, h⟩, fun ⟨q', e, h⟩ => by cases e; exact h⟩
    | lt q => simp [keepParam, ClosureParam]
    | const i t => simp [keepParam, ClosureParam]
  · have : (declosureGenerics hm g).preds.getD [] = (g.preds.getD []).filter (keepPred hm) := by
      unfold declosureGenerics
      cases g.preds with
      | none => rfl
      | some wc =>
        simp only [Option.getD_some]
        split
        · rename_i e; rw [e]; rfl
        · rfl
    rw [this]
    refine minus_filter _ _ _ fun w _ => ?_
    cases w with
    | lt l b => simp [keepPred, ClosurePred]
    | ty ls t bs =>
      rw [keepPred]
      split
      · rename_i i hi
        simp only [Bool.not_eq_false', removes_iff H]
        constructor
        · intro h; exact ⟨ls, t, bs, i, rfl, (asIdent_iff _ _).1 hi, h⟩
        · rintro ⟨_, _, _, n, e, hn, h⟩
          cases e
          have := (asIdent_iff _ _).2 hn
          rw [hi] at this; cases this; exact h
      · rename_i hi
        simp only [Bool.true_eq_false, false_iff]
        rintro ⟨_, _, _, n, e, hn, h⟩
        cases e
        have := (asIdent_iff _ _).2 hn
        rw [hi] at this; cases this
  · intro n bs bs' h h'
    have a := (H (.name n) (boxDyn bs)).2 ⟨n, bs, rfl, h, rfl⟩
    have b := (H (.name n) (boxDyn bs')).2 ⟨n, bs', rfl, h', rfl⟩
    rw [a] at b
    exact boxDyn_inj (Option.some.inj b)

/-! ## When it succeeds -/

theorem isFn_iff (m : Bool) (ls : List Lt) (c : Bool) (segs : List Seg) (s : Seg)
    (h : segs.getLast? = some s) :
    isFn (.trait m ls c segs) = true ↔ s.id ∈ ["Fn", "FnMut", "FnOnce"] := by
  obtain ⟨init, rfl⟩ := List.getLast?_eq_some_iff.1 h
  cases s
  simp [isFn, Seg.id, or_assoc]

theorem nameOf_eq : ∀ t : Ty, nameOf t = asIdent t
  | .group t => by rw [nameOf, asIdent, nameOf_eq t]
  | .path c s => by
    rw [nameOf.eq_def, asIdent.eq_def]
    split
    · rename_i i e
      cases e
      simp
    · rename_i e; cases e
    · rename_i h k
      split
      · rename_i e; cases e
      · rename_i i e
        cases e
        exact absurd rfl (h i)
      · rfl
  | .array _ _ | .bareFn _ _ _ | .implTrait _ | .infer | .mac _ | .never | .paren _ | .qpath _ _ _ _
  | .ptr _ _ | .ref _ _ _ | .slice _ | .traitObject _ | .tuple _ | .verbatim _ => by
    simp [nameOf, asIdent]

/-- From `hm` we get to a map that has in addition at most the names in `L`. -/
def Reaches (hm : FnMap) (x : Gen FnMap) (L : List Ident) : Prop :=
  ∃ hm', x = .ok hm' ∧ ∀ n, n ∉ L → hm'.lookup (.name n) = hm.lookup (.name n)

theorem saveFn_reaches (i : Ident) (all : List Bound) : ∀ (l : List Bound) (hm : FnMap),
    (∀ b ∈ l, ProperBound b) → (perFn i l).Nodup → (∀ n ∈ perFn i l, hm.lookup (.name n) = none) →
      Reaches hm (saveFnTypes i all l hm) (perFn i l)
  | [], hm, _, _, _ => ⟨hm, rfl, fun _ _ => rfl⟩
  | .lt x :: l, hm, hp, hn, hl => by
    have e : perFn i (.lt x :: l) = perFn i l := by simp [perFn, isFn]
    rw [e] at hn hl ⊢
    exact saveFn_reaches i all l hm (fun b h => hp b (List.mem_cons_of_mem _ h)) hn hl
  | .other x :: l, hm, hp, hn, hl => by
    have e : perFn i (.other x :: l) = perFn i l := by simp [perFn, isFn]
    rw [e] at hn hl ⊢
    exact saveFn_reaches i all l hm (fun b h => hp b (List.mem_cons_of_mem _ h)) hn hl
  | .trait m ls c segs :: l, hm, hp, hn, hl => by
    have hp' : ∀ b ∈ l, ProperBound b := fun b h => hp b (List.mem_cons_of_mem _ h)
    rw [saveFnTypes]
    split
    · rename_i h
      exact absurd (List.getLast?_eq_none_iff.1 h) (hp _ List.mem_cons_self)
    · rename_i s hs
      split
      · rename_i hid
        have hf := (isFn_iff m ls c segs s hs).2 hid
        have e : perFn i (.trait m ls c segs :: l) = i :: perFn i l := by simp [perFn, hf]
        rw [e] at hn hl ⊢
        have none_i := hl i List.mem_cons_self
        rw [if_neg (by rw [none_i]; simp)]
        have nil : perFn i l = [] := by
          rcases h : perFn i l with _ | ⟨a, r⟩
          · rfl
          · have ha : a = i := by
              have : a ∈ perFn i l := by rw [h]; exact List.mem_cons_self
              simp only [perFn, List.mem_map] at this
              obtain ⟨_, _, rfl⟩ := this; rfl
            rw [h, ha] at hn
            simp at hn
        obtain ⟨hm', h, k⟩ := saveFn_reaches i all l ((.name i, boxDyn all) :: hm) hp'
          (by rw [nil]; exact List.nodup_nil) (by rw [nil]; simp)
        refine ⟨hm', h, fun n hne => ?_⟩
        rw [k n (by rw [nil]; simp), List.lookup_cons]
        have : (Ty.name n == Ty.name i) = false := by
          simp only [List.mem_cons, not_or] at hne
          simpa using fun e => hne.1 (name_inj e)
        simp [this]
      · rename_i hid
        have hf : isFn (.trait m ls c segs) = false := by
          rw [← Bool.not_eq_true, isFn_iff m ls c segs s hs]; exact hid
        have e : perFn i (.trait m ls c segs :: l) = perFn i l := by simp [perFn, hf]
        rw [e] at hn hl ⊢
        exact saveFn_reaches i all l hm hp' hn hl

theorem reaches_seq {hm : FnMap} {x : Gen FnMap} {f : FnMap → Gen FnMap} {L M : List Ident}
    (hd : (L ++ M).Nodup) (hl : ∀ n ∈ L ++ M, hm.lookup (.name n) = none)
    (h : Reaches hm x L)
    (k : ∀ m, M.Nodup → (∀ n ∈ M, m.lookup (.name n) = none) → Reaches m (f m) M) :
    Reaches hm (x >>= f) (L ++ M) := by
  obtain ⟨m, rfl, h⟩ := h
  rw [List.nodup_append] at hd
  obtain ⟨hm', h', k'⟩ := k m hd.2.1 fun n hn => by
    rw [h n fun hL => hd.2.2 n hL n hn rfl]; exact hl n (List.mem_append_right _ hn)
  refine ⟨hm', h', fun n hn => ?_⟩
  simp only [List.mem_append, not_or] at hn
  rw [k' n hn.2, h n hn.1]

theorem saveParams_reaches : ∀ (l : List GParam) (hm : FnMap),
    (∀ p, .ty p ∈ l → ∀ b ∈ p.bounds, ProperBound b) →
    (l.flatMap fun | .ty p => perFn p.id p.bounds | _ => []).Nodup →
    (∀ n ∈ l.flatMap fun | .ty p => perFn p.id p.bounds | _ => [], hm.lookup (.name n) = none) →
    Reaches hm (saveParams l hm) (l.flatMap fun | .ty p => perFn p.id p.bounds | _ => [])
  | [], hm, _, _, _ => ⟨hm, rfl, fun _ _ => rfl⟩
  | .lt p :: l, hm, hp, hn, hl => by
    exact saveParams_reaches l hm (fun q h => hp q (List.mem_cons_of_mem _ h)) hn hl
  | .const i t :: l, hm, hp, hn, hl => by
    exact saveParams_reaches l hm (fun q h => hp q (List.mem_cons_of_mem _ h)) hn hl
  | .ty p :: l, hm, hp, hn, hl => by
    rw [List.flatMap_cons] at hn hl ⊢
    refine reaches_seq hn hl (saveFn_reaches _ _ _ _ (hp p List.mem_cons_self)
      (List.nodup_append.1 hn).1 fun n h => hl n (List.mem_append_left _ h)) fun m hn hl => ?_
    exact saveParams_reaches l m (fun q h => hp q (List.mem_cons_of_mem _ h)) hn hl

/-- The part of `closures` from the where clause. -/
def predFns : WPred → List Ident
  | .ty _ t bs => match nameOf t with
    | some n => perFn n bs
    | none => []
  | _ => []

theorem savePreds_reaches : ∀ (l : List WPred) (hm : FnMap),
    (∀ ls t bs, .ty ls t bs ∈ l → ∀ b ∈ bs, ProperBound b) → (l.flatMap predFns).Nodup →
    (∀ n ∈ l.flatMap predFns, hm.lookup (.name n) = none) →
    Reaches hm (savePreds l hm) (l.flatMap predFns)
  | [], hm, _, _, _ => ⟨hm, rfl, fun _ _ => rfl⟩
  | .lt x b :: l, hm, hp, hn, hl => by
    exact savePreds_reaches l hm (fun ls t bs h => hp ls t bs (List.mem_cons_of_mem _ h)) hn hl
  | .ty ls t bs :: l, hm, hp, hn, hl => by
    have hp' : ∀ ls t bs, .ty ls t bs ∈ l → ∀ b ∈ bs, ProperBound b :=
      fun ls t bs h => hp ls t bs (List.mem_cons_of_mem _ h)
    rw [List.flatMap_cons] at hn hl ⊢
    rw [savePreds]
    cases hi : asIdent t with
    | none =>
      have e : predFns (.ty ls t bs) = [] := by simp [predFns, nameOf_eq, hi]
      rw [e] at hn hl ⊢
      exact savePreds_reaches l hm hp' hn hl
    | some i =>
      have e : predFns (.ty ls t bs) = perFn i bs := by simp [predFns, nameOf_eq, hi]
      rw [e] at hn hl ⊢
      refine reaches_seq hn hl (saveFn_reaches _ _ _ _ (hp ls t bs List.mem_cons_self)
        (List.nodup_append.1 hn).1 fun n h => hl n (List.mem_append_left _ h)) fun m hn hl => ?_
      exact savePreds_reaches l m hp' hn hl

/-- Every signature with named arguments and at most one closure bound for each parameter is accepted. -/
theorem C50_total (g : Generics) (args : List FnArg) (hg : (closures g).Nodup) (hb : ProperBounds g)
    (ha : ∀ a ∈ args, PlainArg a) : Gen.succeeds (declosurefy g args) := by
  unfold closures at hg
  obtain ⟨hm, h, -⟩ := reaches_seq (hm := []) (f := savePreds (g.preds.getD [])) hg (by simp)
    (saveParams_reaches g.params [] hb.1 (List.nodup_append.1 hg).1 (by simp))
    (fun m hn hl => savePreds_reaches _ m hb.2 hn hl)
  simp only [gen_bind_ok] at h
  obtain ⟨m, hm1, hm2⟩ := h
  unfold declosurefy
  refine succeeds_bind.2 ⟨m, hm1, succeeds_bind.2 ⟨hm, hm2, ?_⟩⟩
  refine succeeds_seq (mapM_succeeds.2 fun a h => ?_) fun _ =>
    succeeds_seq (mapM_succeeds.2 fun a h => ?_) fun _ => succeeds_pure
  · cases a with
    | receiver => exact succeeds_pure
    | typed as p t => obtain ⟨mu, i, rfl⟩ := ha _ h; exact succeeds_pure
  · cases a with
    | receiver => exact succeeds_pure
    | typed as p t =>
      obtain ⟨mu, i, rfl⟩ := ha _ h
      simp only [declosureCall, demutifyPat, Bool.false_eq_true, if_false]
      refine succeeds_seq succeeds_pure fun p' => ?_
      split
      · exact succeeds_pure
      · split <;> exact succeeds_pure

/-! ## Where it does not hold -/

/-- `Fn(args)` -/
def fnOf (args : List Ty) : Bound := .trait false [] false [.mk "Fn" (.paren args .unit)]

/-- `Send` -/
def sendB : Bound := .trait false [] false [.of "Send"]

/-- `x: t` -/
def xOf (t : Ty) : FnArg := .typed [] (.ident false false "x" false) t

/-- `<F: Fn()> where F: Send` -/
def fSend : Generics where
  angle := true
  params := [.ty { id := "F", bounds := [fnOf []] }]
  preds := some [.ty none (.name "F") [sendB]]

/-- `fn foo<F: Fn()>(x: F) where F: Send`: the box is not `Send`. -/
theorem C50_bounds_lost :
    ∃ g, BoundsOf g "F" [sendB] ∧ Closure g "F" ∧
      declosurefy g [xOf (.name "F")] =
        .ok ({}, [xOf (.path false [.mk "Box" (.angle [.ty (.traitObject [fnOf []])])])],
          [.boxed (.ident false false "x" false)]) := by
  refine ⟨fSend, ?_, ?_, by decide +kernel⟩
  · exact .pred none (.name "F") _ (List.mem_singleton.2 rfl) (.name (by decide))
  · exact ⟨_, .param { id := "F", bounds := [fnOf []] } (List.mem_singleton.2 rfl) rfl,
      fnOf [], List.mem_singleton.2 rfl, .mk _ _ _ [] _ _ (.inl rfl)⟩

/-- `fn foo<F>(x: F) where for<'a> F: Fn(&'a u32)`: the box has the lifetime, but nothing declares it. -/
theorem C50_for_lost :
    ∃ g b, g.preds = some [.ty (some [⟨"a", []⟩]) (.name "F") [b]] ∧
      declosurefy g [xOf (.name "F")] =
        .ok ({}, [xOf (.path false [.mk "Box" (.angle [.ty (.traitObject [b])])])],
          [.boxed (.ident false false "x" false)]) :=
  ⟨{ angle := true, params := [.ty { id := "F" }],
     preds := some [.ty (some [⟨"a", []⟩]) (.name "F") [fnOf [.ref (some "a") false (.name "u32")]]] },
    fnOf [.ref (some "a") false (.name "u32")], rfl, by decide +kernel⟩

/-- `fn foo<F: Fn()>(x: Option<F>)`: the argument keeps its type, but `F` is gone. -/
theorem C50_escapes :
    ∃ g t, Closure g "F" ∧
      t = .path false [.mk "Option" (.angle [.ty (.name "F")])] ∧
      declosurefy g [xOf t] = .ok ({}, [xOf t], [.plain (.ident false false "x" false)]) :=
  ⟨{ angle := true, params := [.ty { id := "F", bounds := [fnOf []] }] }, _,
    ⟨_, .param { id := "F", bounds := [fnOf []] } (List.mem_singleton.2 rfl) rfl,
      fnOf [], List.mem_singleton.2 rfl, .mk _ _ _ [] _ _ (.inl rfl)⟩, rfl, by decide +kernel⟩

/-- Two closure bounds are rejected: `F: Fn() + FnOnce()`. -/
theorem C50_two_rejected (n : Ident) (a b : List Ty) :
    ¬ Gen.succeeds (declosurefy
      { angle := true, params := [.ty { id := n, bounds := [fnOf a, fnOf b] }] } []) := by
  rintro ⟨r, h⟩
  simp [declosurefy, saveParams, saveFnTypes, fnOf, Seg.id] at h

/-! ## Example -/

/-- `fn foo<T, F: Fn(u32) + Send>(&self, mut x: F, y: T) where T: Send, F: 'static` -/
example : declosurefy
    { angle := true, params := [.ty { id := "T" }, .ty { id := "F", bounds := [fnOf [.name "u32"], sendB] }],
      preds := some [.ty none (.name "T") [sendB], .ty none (.name "F") [.lt "static"]] }
    [.receiver (some none) false false (.name "Self"),
      .typed [] (.ident false true "x" false) (.name "F"),
      .typed [] (.ident false false "y" false) (.name "T")] =
    .ok ({ angle := true, params := [.ty { id := "T" }], preds := some [.ty none (.name "T") [sendB]] },
      [.receiver (some none) false false (.name "Self"),
        .typed [] (.ident false false "x" false)
          (.path false [.mk "Box" (.angle [.ty (.traitObject [fnOf [.name "u32"], sendB])])]),
        .typed [] (.ident false false "y" false) (.name "T")],
      [.boxed (.ident false false "x" false), .plain (.ident false false "y" false)]) := by decide +kernel

/-- The hypotheses of `C50_total` are met. -/
example : (closures { angle := true, params := [.ty { id := "T" },
    .ty { id := "F", bounds := [fnOf [.name "u32"], sendB] }] }).Nodup := by decide +kernel

end Mockall.Props
