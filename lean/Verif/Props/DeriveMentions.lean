import Verif.Spec.Mentions
import Verif.Props.DeriveScopes
import Verif.Lemmas.Struct

/-! # C91: generated types are used as they are declared -/

namespace Mockall.Props

open Derive Spec

/-! ## Bounds of the generics -/

theorem merge_tyBound {x y : Generics} (hx : Weak x) (hy : Weak y) (n : Ident) (b : Bound) :
    TyBound (mergeGenerics x y) n b ↔ TyBound x n b ∨ TyBound y n b := by
  simp only [TyBound, mergeGenerics, mergeParams]
  split
  · rename_i h; rw [hx h.1 h.2]; simp
  · split
    · rename_i h; rw [hy h.1 h.2]; simp
    · exact foldl_bound n b _ _

theorem merge_whereTy (x y : Generics) (t : Ty) (b : Bound) :
    (∃ ls, WhereTy (mergeGenerics x y) ls t b) ↔ (∃ ls, WhereTy x ls t b) ∨ ∃ ls, WhereTy y ls t b :=
  (C46_where x y t b).1

theorem ltsToGenerics_noBound (l : List LtParam) (n : Ident) (b : Bound) : ¬ TyBound (ltsToGenerics l) n b := by
  rintro ⟨p, h, -⟩
  unfold ltsToGenerics at h
  split at h <;> simp at h

theorem ltsToGenerics_noWhere (l : List LtParam) (ls : List LtParam) (t : Ty) (b : Bound) :
    ¬ WhereTy (ltsToGenerics l) ls t b := by
  rintro ⟨_, _, h, -⟩
  rw [ltsToGenerics_preds] at h
  cases h

theorem split_bounds {g tg : Generics} {args : List FnArg} {rt : Ret} {al rl : List LtParam}
    (h : splitLifetimes g args rt = .ok (tg, al, rl)) :
    (∀ n x, TyBound tg n x → TyBound g n x) ∧ ∀ ls t x, WhereTy tg ls t x → WhereTy g ls t x := by
  cases ha : g.angle with
  | false => rw [C45_no_params g args rt ha] at h; cases h; exact ⟨fun _ _ h => h, fun _ _ _ h => h⟩
  | true =>
    obtain ⟨hp, hq, -⟩ := C45_split_partial g args rt tg al rl ha h
    constructor
    · rintro n x ⟨p, k, e, m⟩
      rw [hp] at k
      obtain ⟨q, k, e'⟩ := List.mem_map.1 k
      cases e'
      obtain ⟨r, hr, e'⟩ := List.mem_filterMap.1 k
      cases r <;> simp only [Option.some.injEq, reduceCtorEq] at e'
      subst e'
      exact ⟨_, hr, e, m⟩
    · rintro ls t x ⟨lo, bs, k, e⟩
      rw [hq] at k
      split at k
      · cases k
      · exact ⟨lo, bs, k, e⟩

/-- The bounds of the generics of a function are those of the two parts. -/
structure Parts (f : MockFn) : Prop where
  ct : ∀ n x, TyBound f.cgenerics n x ↔ TyBound f.typeGenerics n x ∨ TyBound f.callGenerics n x
  cw : ∀ t x, (∃ ls, WhereTy f.cgenerics ls t x) ↔
    (∃ ls, WhereTy f.typeGenerics ls t x) ∨ ∃ ls, WhereTy f.callGenerics ls t x
  et : ∀ n x, TyBound f.egenerics n x ↔ TyBound f.cgenerics n x
  ew : ∀ t x, (∃ ls, WhereTy f.egenerics ls t x) ↔ ∃ ls, WhereTy f.cgenerics ls t x

theorem steps_parts {b : Builder} {f : MockFn} (s : Steps b f) (hs : Wf (b.structGenerics.getD {})) (hw : Wf s.dg') :
    Parts f := by
  obtain ⟨w1, -⟩ := split_typeParams hs s.sgen
  obtain ⟨w2, -⟩ := split_typeParams hw s.mgen
  refine ⟨fun n x => ?_, fun t x => ?_, fun n x => ?_, fun t x => ?_⟩
  · rw [s.cgen, merge_tyBound w1 w2]
  · rw [s.cgen, merge_whereTy]
  · have wc : Weak f.cgenerics := by rw [s.cgen]; exact merge_weak w2
    rw [s.egen, merge_tyBound (merge_weak (ltsToGenerics_weak _)) (ltsToGenerics_weak _),
      merge_tyBound wc (ltsToGenerics_weak _)]
    simp [ltsToGenerics_noBound]
  · rw [s.egen, merge_whereTy, merge_whereTy]
    simp [ltsToGenerics_noWhere]

theorem granted_of {s : Site} {g h : Generics} (hm : h ∈ s.outer ++ s.generics)
    (ht : ∀ n x, TyBound g n x → TyBound h n x)
    (hw : ∀ t x, (∃ ls, WhereTy g ls t x) → ∃ ls, WhereTy h ls t x) : Granted s g :=
  ⟨fun n x k => ⟨h, hm, ht n x k⟩, fun ls t x k => ⟨h, hm, hw t x ⟨ls, k⟩⟩⟩

theorem withGuardLt_tyBound {g : Generics} {n : Ident} {x : Bound} : TyBound (withGuardLt g) n x ↔ TyBound g n x := by
  simp [TyBound, withGuardLt]

theorem withGuardLt_where {g : Generics} {ls : List LtParam} {t : Ty} {x : Bound} :
    WhereTy (withGuardLt g) ls t x ↔ WhereTy g ls t x := Iff.rfl

theorem notGeneric_bounds {g : Generics} (h : ¬ IsGeneric g) :
    (∀ n x, ¬ TyBound g n x) ∧ ∀ ls t x, ¬ WhereTy g ls t x := by
  constructor
  · rintro n x ⟨p, hp, e, -⟩
    exact h (.inl ⟨n, p, hp, e⟩)
  · rintro ls t x ⟨lo, bs, k, -⟩
    refine h (.inr fun e => ?_)
    rw [e] at k
    cases k

/-! ## Arguments -/

theorem fits_tg (g : Generics) : ArgsFit g (if g.params = [] then .none else .angle (g.params.map paramAsArg)) := by
  split
  · assumption
  · refine ⟨by assumption, ?_⟩
    rw [List.map_map]
    refine List.map_congr_left fun p _ => ?_
    cases p <;> rfl

theorem fits_static (g : Generics) :
    ArgsFit g (if (staticize g).params = [] then .none else .angle ((staticize g).params.map paramAsArg)) := by
  have e : (staticize g).params = [] ↔ g.params = [] := by simp [staticize]
  split
  · rename_i h; exact e.1 h
  · rename_i h
    refine ⟨fun k => h (e.2 k), ?_⟩
    rw [List.map_map, staticize, List.map_map]
    refine List.map_congr_left fun p _ => ?_
    cases p <;> rfl

theorem tgTy_path {m n : Ident} {g : Generics} {args : Args} (h : tgTy m g = .path false [.mk n args]) :
    m = n ∧ (if g.params = [] then .none else .angle (g.params.map paramAsArg)) = args := by
  simp only [tgTy] at h
  cases h
  exact ⟨rfl, rfl⟩

/-! ## The sites -/

/-- What each of the types is declared with. -/
def ownGenerics (f : MockFn) (n : Ident) : Generics :=
  if n = "Matcher" ∨ n = "Common" then f.cgenerics
  else if n = "ExpectationGuard" then withGuardLt f.egenerics
  else if n = "Context" then f.typeGenerics
  else f.egenerics

theorem site_declares {sg : Generics} {f : MockFn} {d : Site} {n : Ident} (hd : d ∈ f.sites sg) (hn : n ∈ ownTypes)
    (e : d.name = n) : DeclaresOwn d n (ownGenerics f n) := by
  refine ⟨e, ?_⟩
  subst e
  simp only [MockFn.sites, List.mem_append] at hd
  rcases hd with (((((((hd | hd) | hd) | hd) | hd) | hd) | hd) | hd) | hd
  · unfold MockFn.rfuncSites at hd
    split at hd <;> simp only [List.mem_cons, List.not_mem_nil, or_false] at hd <;> rcases hd with rfl | rfl <;>
      first | rfl | exact absurd hn (by simp [ownTypes])
  · simp only [MockFn.matcherSites, List.mem_cons, List.not_mem_nil, or_false] at hd
    rcases hd with rfl | rfl <;> first | rfl | exact absurd hn (by simp [ownTypes])
  · simp only [MockFn.commonSites, List.mem_cons, List.not_mem_nil, or_false] at hd
    rcases hd with rfl | rfl | rfl | rfl <;> first | rfl | exact absurd hn (by simp [ownTypes])
  · simp only [MockFn.expectationSites, List.mem_append, List.mem_cons, List.not_mem_nil, or_false] at hd
    rcases hd with (rfl | rfl | rfl | rfl | rfl) | hd
    · rfl
    · exact absurd hn (by simp [ownTypes])
    · exact absurd hn (by simp [ownTypes])
    · exact absurd hn (by simp [ownTypes])
    · exact absurd hn (by simp [ownTypes])
    unfold MockFn.returnSites at hd
    split at hd <;> simp only [List.mem_cons, List.not_mem_nil, or_false] at hd
    · subst hd; exact absurd hn (by simp [ownTypes])
    · rcases hd with rfl | rfl <;> exact absurd hn (by simp [ownTypes])
    · rcases hd with rfl | rfl <;> exact absurd hn (by simp [ownTypes])
  · simp only [MockFn.expectationsSites, List.mem_cons, List.not_mem_nil, or_false] at hd
    rcases hd with rfl | rfl <;> first | rfl | exact absurd hn (by simp [ownTypes])
  · unfold MockFn.storeSites at hd
    split at hd <;> simp only [List.mem_cons, List.not_mem_nil, or_false] at hd
    rcases hd with rfl | rfl | rfl <;> exact absurd hn (by simp [ownTypes])
  · unfold MockFn.guardSites at hd
    split at hd <;> simp only [List.mem_append, List.mem_cons, List.not_mem_nil, or_false] at hd
    rcases hd with hd | rfl | rfl | rfl | rfl
    · unfold MockFn.getSites at hd
      split at hd <;> simp only [List.mem_cons, List.not_mem_nil, or_false] at hd <;> subst hd <;>
        exact absurd hn (by simp [ownTypes])
    all_goals first | rfl | exact absurd hn (by simp [ownTypes])
  · unfold MockFn.contextSites at hd
    split at hd <;> simp only [List.mem_cons, List.not_mem_nil, or_false] at hd
    rcases hd with rfl | rfl <;> first | rfl | exact absurd hn (by simp [ownTypes])
  · rw [MockFn.outsideSites, List.mem_cons] at hd
    rcases hd with rfl | hd
    · exact absurd hn (by simp [ownTypes])
    cases hst : f.isStatic <;> simp only [hst, if_true, if_false, Bool.false_eq_true, List.mem_cons,
      List.not_mem_nil, or_false] at hd
    · rcases hd with rfl | rfl <;> exact absurd hn (by simp [ownTypes])
    · subst hd; exact absurd hn (by simp [ownTypes])

/-- Each of the types is declared, `ExpectationGuard` and `Context` for static functions. -/
theorem site_exists (sg : Generics) (f : MockFn) {n : Ident} (hn : n ∈ ownTypes)
    (hst : n = "ExpectationGuard" ∨ n = "Context" → f.isStatic = true) : ∃ d ∈ f.sites sg, d.name = n := by
  have key : n ∈ (f.sites sg).map Site.name := by
    simp only [MockFn.sites, List.map_append, List.mem_append]
    simp only [ownTypes, List.mem_cons, List.not_mem_nil, or_false] at hn
    rcases hn with rfl | rfl | rfl | rfl | rfl | rfl | rfl
    · refine .inl (.inl (.inl (.inl (.inl (.inl (.inl (.inl ?_)))))))
      unfold MockFn.rfuncSites; split <;> simp
    · exact .inl (.inl (.inl (.inl (.inl (.inl (.inl (.inr (by simp [MockFn.matcherSites]))))))))
    · exact .inl (.inl (.inl (.inl (.inl (.inl (.inr (by simp [MockFn.commonSites])))))))
    · exact .inl (.inl (.inl (.inl (.inl (.inr (by simp [MockFn.expectationSites]))))))
    · exact .inl (.inl (.inl (.inl (.inr (by simp [MockFn.expectationsSites])))))
    · exact .inl (.inl (.inr (by simp [MockFn.guardSites, hst (.inl rfl)])))
    · exact .inl (.inr (by simp [MockFn.contextSites, hst (.inr rfl)]))
  obtain ⟨d, hd, e⟩ := List.mem_map.1 key
  exact ⟨d, hd, e⟩

theorem mention_ok {b : Builder} {f : MockFn} (s0 : Steps b f) (pt : Parts f) (hs : Wf (b.structGenerics.getD {}))
    (hsub : ∀ n, HasTyParam (b.structGenerics.getD {}) n → HasTyParam f.egenerics n)
    (hf : NamesFree f) {s : Site} (hm : s ∈ f.sites (b.structGenerics.getD {})) {n : Ident} (hn : n ∈ ownTypes)
    {args : Args} (ht : .path false [.mk n args] ∈ s.tys) :
    ArgsFit (ownGenerics f n) args ∧ Granted s (ownGenerics f n) ∧
      (n = "ExpectationGuard" ∨ n = "Context" → f.isStatic = true) := by
  obtain ⟨hp, hu⟩ := hf n hn
  have U : ∀ t : Ty, .path false [.mk n args] = t →
      t ∉ f.argTys ++ f.predTys ++ f.refPredTys ++ [f.output, f.ownedOutput] :=
    fun t e h => hu t h args e.symm
  have ua : .path false [.mk n args] ∉ f.argTys := fun h => U _ rfl (by simp [h])
  have uo : .path false [.mk n args] ≠ f.output := fun h => U _ h (by simp)
  have uw : .path false [.mk n args] ≠ f.ownedOutput := fun h => U _ h (by simp)
  have P : ∀ g : Generics, (∀ m, HasTyParam g m → HasTyParam f.egenerics m) →
      .path false [.mk n args] ∉ (typeParams g).map Ty.name := by
    intro g hg h
    obtain ⟨i, hi, e⟩ := List.mem_map.1 h
    cases e
    exact hp (hg _ ((typeParams_has g n).1 hi))
  have up : .path false [.mk n args] ∉ f.fnParamTys := by
    rw [MockFn.fnParamTys, s0.params]
    exact P _ fun _ h => h
  have R : ∀ (m : Bool) (l : List Ty), .path false [.mk n args] ∉ l.map (Ty.ref none m) := by
    intro m l h
    obtain ⟨_, _, e⟩ := List.mem_map.1 h
    cases e
  have usy : .path false [.mk n args] ∉ f.syncTys := by
    intro h
    unfold MockFn.syncTys at h
    split at h
    · exact uw (List.mem_singleton.1 h)
    · cases h
  have usc : .path false [.mk n args] ≠ f.callOutput := by
    unfold MockFn.callOutput
    split
    · intro e; cases e
    · exact uo
  -- a mention with the declared generics
  have T : ∀ {m : Ident} {g : Generics}, .path false [.mk n args] = tgTy m g → ownGenerics f m = g →
      m ≠ "ExpectationGuard" → m ≠ "Context" → Granted s g →
      ArgsFit (ownGenerics f n) args ∧ Granted s (ownGenerics f n) ∧
        (n = "ExpectationGuard" ∨ n = "Context" → f.isStatic = true) := by
    intro m g e eg h1 h2 hg
    obtain ⟨rfl, rfl⟩ := tgTy_path e.symm
    rw [eg]
    exact ⟨fits_tg g, hg, fun h => h.elim (absurd · h1) (absurd · h2)⟩
  have EE : ∀ {x : Site}, x.generics.head? = some f.egenerics → Granted x f.egenerics ∧ Granted x f.cgenerics :=
    fun {x} k => ⟨granted_of (List.mem_append_right _ (List.mem_of_mem_head? (by rw [k]; rfl))) (fun _ _ h => h)
      fun _ _ h => h, granted_of (List.mem_append_right _ (List.mem_of_mem_head? (by rw [k]; rfl)))
      (fun n x => (pt.et n x).2) fun t x => (pt.ew t x).2⟩
  have GG : ∀ {x : Site}, x.generics.head? = some (withGuardLt f.egenerics) → Granted x f.egenerics :=
    fun {x} k => granted_of (List.mem_append_right _ (List.mem_of_mem_head? (by rw [k]; rfl)))
      (fun n x => withGuardLt_tyBound.2) fun t x h => h
  simp only [MockFn.sites, List.mem_append] at hm
  rcases hm with (((((((hm | hm) | hm) | hm) | hm) | hm) | hm) | hm) | hm
  · unfold MockFn.rfuncSites at hm
    split at hm <;> simp only [List.mem_cons, List.not_mem_nil, or_false] at hm <;> rcases hm with rfl | rfl <;>
      simp [ua, uo, uw, up] at ht
  · simp only [MockFn.matcherSites, List.mem_cons, List.not_mem_nil, or_false] at hm
    rcases hm with rfl | rfl
    · exact absurd ht up
    · exact absurd ht (R _ _)
  · simp only [MockFn.commonSites, List.mem_cons, List.not_mem_nil, or_false] at hm
    rcases hm with rfl | rfl | rfl | rfl
    · exact T (List.mem_singleton.1 ht) rfl (by decide) (by decide)
        (granted_of List.mem_cons_self (fun _ _ h => h) fun _ _ h => h)
    · exact absurd ht (R _ _)
    · cases ht
    · cases ht
  · simp only [MockFn.expectationSites, List.mem_append, List.mem_cons, List.not_mem_nil, or_false] at hm
    rcases hm with (rfl | rfl | rfl | rfl | rfl) | hm
    · simp only [List.mem_cons, List.not_mem_nil, or_false] at ht
      rcases ht with ht | ht
      · exact T ht rfl (by decide) (by decide) (EE rfl).2
      · exact T ht rfl (by decide) (by decide) (EE rfl).1
    · simp [ua, usc] at ht
    · exact absurd ht (R _ _)
    · cases ht
    · cases ht
    · unfold MockFn.returnSites at hm
      split at hm <;> simp only [List.mem_cons, List.not_mem_nil, or_false] at hm
      · subst hm; simp [uw] at ht
      · rcases hm with rfl | rfl <;> simp [ua, uw] at ht
      · rcases hm with rfl | rfl <;> simp [uo] at ht
  · simp only [MockFn.expectationsSites, List.mem_cons, List.not_mem_nil, or_false] at hm
    rcases hm with rfl | rfl
    · exact T (List.mem_singleton.1 ht) rfl (by decide) (by decide) (EE rfl).1
    · simp [ua, uo] at ht
  · unfold MockFn.storeSites at hm
    split at hm <;> simp only [List.mem_cons, List.not_mem_nil, or_false] at hm
    rcases hm with rfl | rfl | rfl
    · simp only [List.mem_cons, usy, or_false] at ht
      exact T ht rfl (by decide) (by decide) (EE rfl).1
    · simp only [List.mem_append, List.mem_cons, ua, uo, up, or_false, false_or] at ht
      exact T ht rfl (by decide) (by decide) (EE rfl).1
    · simp only [List.cons_append, List.mem_cons, List.mem_append, usy, up, or_false] at ht
      exact T ht rfl (by decide) (by decide) (EE rfl).1
  · unfold MockFn.guardSites at hm
    split at hm <;> simp only [List.mem_append, List.mem_cons, List.not_mem_nil, or_false] at hm
    rcases hm with hm | rfl | rfl | rfl | rfl
    · unfold MockFn.getSites at hm
      split at hm <;> simp only [List.mem_cons, List.not_mem_nil, or_false] at hm <;> subst hm
      · cases ht
      · rename_i hne
        obtain ⟨k1, k2⟩ := notGeneric_bounds (mt (isGeneric_expectation f).2 hne)
        exact T (List.mem_singleton.1 ht) rfl (by decide) (by decide)
          ⟨fun n x h => absurd h (k1 n x), fun ls t x h => absurd h (k2 ls t x)⟩
    · simp only [List.mem_cons, List.not_mem_nil, or_false, reduceCtorEq] at ht
      exact T ht rfl (by decide) (by decide) (GG rfl)
    · exact T (List.mem_singleton.1 ht) rfl (by decide) (by decide) (GG rfl)
    · simp [uo] at ht
    · cases ht
  · unfold MockFn.contextSites at hm
    split at hm <;> simp only [List.mem_cons, List.not_mem_nil, or_false] at hm
    rename_i hst
    rcases hm with rfl | rfl
    · exact absurd ht (P _ hsub)
    · obtain ⟨rfl, rfl⟩ := tgTy_path (List.mem_singleton.1 ht).symm
      refine ⟨fits_tg _, ⟨fun n x h => ?_, fun ls t x h => ?_⟩, fun _ => hst⟩
      · rcases (pt.ct n x).1 ((pt.et n x).1 (withGuardLt_tyBound.1 h)) with h | h
        · exact ⟨f.typeGenerics, by simp, h⟩
        · exact ⟨withGuardLt f.callGenerics, by simp, withGuardLt_tyBound.2 h⟩
      · rcases (pt.cw t x).1 ((pt.ew t x).1 ⟨ls, h⟩) with h | h
        · exact ⟨f.typeGenerics, by simp, h⟩
        · exact ⟨withGuardLt f.callGenerics, by simp, h⟩
  · obtain ⟨b1, b2⟩ := split_bounds s0.sgen
    rw [MockFn.outsideSites, List.mem_cons] at hm
    rcases hm with rfl | hm
    · obtain ⟨rfl, -⟩ := tgTy_path (List.mem_singleton.1 ht).symm
      exact absurd hn (by simp [ownTypes])
    cases hst : f.isStatic <;> simp only [hst, if_true, if_false, Bool.false_eq_true, List.mem_cons,
      List.not_mem_nil, or_false] at hm
    · rcases hm with rfl | rfl
      · have e : .path false [.mk n args] = tgTy "Expectation" (staticize f.egenerics) := by
          rcases List.mem_cons.1 ht with h | h
          · exact h
          · split at h
            · exact absurd h usy
            · cases h
        obtain ⟨rfl, rfl⟩ := tgTy_path e.symm
        refine ⟨fits_static _, ⟨fun n x h => ?_, fun ls t x h => ?_⟩, by simp⟩
        · rcases (pt.ct n x).1 ((pt.et n x).1 h) with h | h
          · exact ⟨_, List.mem_cons_self, b1 n x h⟩
          · exact ⟨f.callGenerics, by simp, h⟩
        · rcases (pt.cw t x).1 ((pt.ew t x).1 ⟨ls, h⟩) with ⟨ls', h⟩ | h
          · exact ⟨_, List.mem_cons_self, ls', b2 ls' t x h⟩
          · exact ⟨f.callGenerics, by simp, h⟩
      · by_cases hmg : f.isMethodGeneric = true
        · simp only [hmg, if_true] at ht
          cases ht
        · simp only [if_neg hmg] at ht
          obtain ⟨rfl, rfl⟩ := tgTy_path (List.mem_singleton.1 ht).symm
          obtain ⟨k1, k2⟩ := notGeneric_bounds (mt (isGeneric_method f).2 hmg)
          refine ⟨fits_static _, ⟨fun n x h => ?_, fun ls t x h => ?_⟩, by simp⟩
          · rcases (pt.ct n x).1 ((pt.et n x).1 h) with h | h
            · exact ⟨_, List.mem_cons_self, b1 n x h⟩
            · exact absurd h (k1 n x)
          · rcases (pt.cw t x).1 ((pt.ew t x).1 ⟨ls, h⟩) with ⟨ls', h⟩ | ⟨ls', h⟩
            · exact ⟨_, List.mem_cons_self, ls', b2 ls' t x h⟩
            · exact absurd h (k2 ls' t x)
    · subst hm
      obtain ⟨rfl, rfl⟩ := tgTy_path (List.mem_singleton.1 ht).symm
      exact ⟨fits_tg _, granted_of List.mem_cons_self b1 fun t x ⟨ls, h⟩ => ⟨ls, b2 ls t x h⟩, fun _ => rfl⟩

/-! ## C91 -/

/-- With `#[concretize]` the function's generics are dropped. -/
theorem steps_concretized {b : Builder} {f : MockFn} (s : Steps b f) (hc : b.concretize = true) :
    s.dg = {} ∧ s.dg' = {} ∧ f.sig.generics = b.sig.generics := by
  have hp := s.prep
  simp only [prepare, hc, if_true, concretizeArgs, gen_bind_ok, gen_pure_ok, Prod.mk.injEq] at hp
  obtain ⟨_, -, _, -, _, -, _, -, _, -, hx, -, -, hs⟩ := hp
  refine ⟨hx.symm, ?_, by rw [← hs]⟩
  have hg := s.gens
  rw [← hx] at hg
  simp only [supersuperfyGenerics, List.mapM_nil, gen_bind_ok, gen_pure_ok] at hg
  obtain ⟨_, rfl, e⟩ := hg
  exact e.symm

theorem steps_genericsWf {b : Builder} {f : MockFn} (s : Steps b f) (hw : Wf b.sig.generics) :
    Wf s.dg' ∧ f.sig.generics = b.sig.generics := by
  cases hc : b.concretize with
  | false =>
    obtain ⟨pr, -, hs⟩ := steps_prepared s hc hw
    exact ⟨pr.wf, by rw [hs]⟩
  | true =>
    obtain ⟨-, hd, hs⟩ := steps_concretized s hc
    exact ⟨by rw [hd]; intro; rfl, hs⟩

/-- The parameters of the struct are among those of the expectation. -/
theorem steps_struct {b : Builder} {f : MockFn} (s : Steps b f) (hs : Wf (b.structGenerics.getD {}))
    (hw : Wf b.sig.generics) (n : Ident) (h : HasTyParam (b.structGenerics.getD {}) n) : HasTyParam f.egenerics n := by
  obtain ⟨w1, t1⟩ := split_typeParams hs s.sgen
  obtain ⟨w2, t2⟩ := split_typeParams (steps_genericsWf s hw).1 s.mgen
  rw [← typeParams_has, typeParams_iff, s.egen,
    merge_mem_keys (merge_weak (ltsToGenerics_weak _)) (ltsToGenerics_weak _),
    merge_mem_keys (by rw [s.cgen]; exact merge_weak w2) (ltsToGenerics_weak _), s.cgen,
    merge_mem_keys w1 w2, ← has_key, ← has_key, t1, t2]
  exact .inl (.inl (.inl h))

/-- After `for<..>` there are only types of the user. -/
theorem under_user {sg : Generics} {f : MockFn} {s : Site} (hm : s ∈ f.sites sg) {t : Ty} (ht : t ∈ s.under) :
    t ∈ f.argTys ++ f.predTys ++ f.refPredTys ++ [f.output, f.ownedOutput] ∨ t ∈ f.predTys.map (.ref none false) := by
  simp only [MockFn.sites, List.mem_append] at hm
  rcases hm with (((((((hm | hm) | hm) | hm) | hm) | hm) | hm) | hm) | hm
  · unfold MockFn.rfuncSites at hm
    split at hm <;> simp only [List.mem_cons, List.not_mem_nil, or_false] at hm <;> rcases hm with rfl | rfl <;> grind
  · simp only [MockFn.matcherSites, List.mem_cons, List.not_mem_nil, or_false] at hm
    rcases hm with rfl | rfl <;> grind
  · simp only [MockFn.commonSites, List.mem_cons, List.not_mem_nil, or_false] at hm
    rcases hm with rfl | rfl | rfl | rfl <;> grind
  · simp only [MockFn.expectationSites, List.mem_append, List.mem_cons, List.not_mem_nil, or_false] at hm
    rcases hm with (rfl | rfl | rfl | rfl | rfl) | hm
    iterate 5 grind
    unfold MockFn.returnSites at hm
    split at hm <;> simp only [List.mem_cons, List.not_mem_nil, or_false] at hm
    · subst hm; cases ht
    · rcases hm with rfl | rfl <;> cases ht
    · rcases hm with rfl | rfl <;> grind
  · simp only [MockFn.expectationsSites, List.mem_cons, List.not_mem_nil, or_false] at hm
    rcases hm with rfl | rfl <;> cases ht
  · unfold MockFn.storeSites at hm
    split at hm
    · simp only [List.mem_cons, List.not_mem_nil, or_false] at hm
      rcases hm with rfl | rfl | rfl <;> cases ht
    · cases hm
  · unfold MockFn.guardSites MockFn.getSites at hm
    split at hm
    · simp only [List.mem_append, List.mem_cons, List.not_mem_nil, or_false] at hm
      rcases hm with hm | rfl | rfl | rfl | rfl
      · split at hm <;> cases List.mem_singleton.1 hm <;> cases ht
      all_goals grind
    · cases hm
  · unfold MockFn.contextSites at hm
    split at hm
    · simp only [List.mem_cons, List.not_mem_nil, or_false] at hm
      rcases hm with rfl | rfl <;> cases ht
    · cases hm
  · unfold MockFn.outsideSites at hm
    rcases List.mem_cons.1 hm with rfl | hm'
    · cases ht
    · split at hm'
      · cases List.mem_singleton.1 hm'; cases ht
      · simp only [List.mem_cons, List.not_mem_nil, or_false] at hm'
        rcases hm' with rfl | rfl <;> cases ht

/-- Wherever the code generated for a function uses one of the generated types, it gives an argument for each of the
parameters that the type is declared with, and the bounds and where clauses of the declaration are around it. -/
theorem C91_types (b : Builder) (f : MockFn) (hs : Wf (b.structGenerics.getD {}))
    (hw : Wf b.sig.generics) (h : build b = .ok f) (hf : NamesFree f) :
    ∀ s ∈ f.sites (b.structGenerics.getD {}), ∀ n ∈ ownTypes, ∀ args, .path false [.mk n args] ∈ s.tys ++ s.under →
      (∃ d ∈ f.sites (b.structGenerics.getD {}), d.name = n) ∧
      ∀ d ∈ f.sites (b.structGenerics.getD {}), d.name = n → ∃ g, DeclaresOwn d n g ∧ ArgsFit g args ∧ Granted s g := by
  intro s hm n hn args ht
  obtain ⟨st⟩ := build_steps h
  replace ht : .path false [.mk n args] ∈ s.tys := by
    rcases List.mem_append.1 ht with ht | ht
    · exact ht
    · rcases under_user hm ht with k | k
      · exact absurd rfl ((hf n hn).2 _ k args)
      · obtain ⟨_, _, e⟩ := List.mem_map.1 k
        cases e
  obtain ⟨k1, k2, k3⟩ := mention_ok st (steps_parts st hs (steps_genericsWf st hw).1) hs (steps_struct st hs hw) hf hm hn ht
  exact ⟨site_exists _ f hn k3, fun d hd e => ⟨_, site_declares hd hn e, k1, k2⟩⟩

theorem supersuperfyBounds_from {n : Nat} {y : Bound} : ∀ {l l' : List Bound}, supersuperfyBounds n l = .ok l' → y ∈ l' →
    ∃ x ∈ l, supersuperfyBound n x = .ok y
  | [], l', h, hm => by simp only [supersuperfyBounds, gen_pure_ok] at h; subst h; cases hm
  | b :: l, l', h, hm => by
    simp only [supersuperfyBounds, gen_bind_ok, gen_pure_ok] at h
    obtain ⟨t', ht, m, hl, rfl⟩ := h
    rcases List.mem_cons.1 hm with rfl | hm
    · exact ⟨b, List.mem_cons_self, ht⟩
    · obtain ⟨x, hx, k⟩ := supersuperfyBounds_from hl hm
      exact ⟨x, List.mem_cons_of_mem _ hx, k⟩

theorem supersuperfyBound_same {n : Nat} {x y : Bound} (h : supersuperfyBound n x = .ok y) : MeansSameBound n x y := by
  intro P gens hl hg
  rw [← hl] at h
  exact supersuperfyBound_denote x y hg h

theorem supersuperfy_same {n : Nat} {x y : Ty} (h : supersuperfy n x = .ok y) : MeansSame n x y := by
  intro P gens hl hg
  rw [← hl] at h
  exact supersuperfy_denote x y hg h

theorem supersuperfyGenerics_from {n : Nat} {g g' : Generics} (h : supersuperfyGenerics n g = .ok g') :
    (∀ m y, TyBound g' m y → ∃ x, TyBound g m x ∧ MeansSameBound n x y) ∧
    ∀ ls t y, WhereTy g' ls t y → ∃ t0 x, WhereTy g ls t0 x ∧ MeansSame n t0 t ∧ MeansSameBound n x y := by
  simp only [supersuperfyGenerics, gen_bind_ok] at h
  obtain ⟨ps, hps, h⟩ := h
  have he : g'.params = ps := by
    split at h
    · simp only [gen_pure_ok] at h; subst h; rfl
    · simp only [gen_bind_ok, gen_pure_ok] at h; obtain ⟨_, _, rfl⟩ := h; rfl
  constructor
  · rintro m y ⟨p, hp, rfl, hy⟩
    rw [he] at hp
    obtain ⟨q, hq, k⟩ := mapM_mem' hps hp
    cases q with
    | ty q =>
      simp only [supersuperfyGParam, gen_bind_ok] at k
      obtain ⟨bs, hbs, k⟩ := k
      have e : p.id = q.id ∧ p.bounds = bs := by
        split at k
        · simp only [gen_pure_ok, GParam.ty.injEq] at k; subst k; exact ⟨rfl, rfl⟩
        · simp only [gen_bind_ok, gen_pure_ok, GParam.ty.injEq] at k; obtain ⟨_, _, rfl⟩ := k; exact ⟨rfl, rfl⟩
      rw [e.2] at hy
      obtain ⟨x, hx, k⟩ := supersuperfyBounds_from hbs hy
      exact ⟨x, ⟨q, hq, e.1.symm, hx⟩, supersuperfyBound_same k⟩
    | lt q => simp only [supersuperfyGParam, gen_pure_ok, reduceCtorEq] at k
    | const i t => simp only [supersuperfyGParam, gen_pure_ok, reduceCtorEq] at k
  · rintro ls t y ⟨lo, bs, hp, rfl, hy⟩
    split at h
    · rename_i hn
      simp only [gen_pure_ok] at h
      subst h
      simp only [hn] at hp
      cases hp
    · rename_i l hn
      simp only [gen_bind_ok, gen_pure_ok] at h
      obtain ⟨l', hl, rfl⟩ := h
      obtain ⟨q, hq, k⟩ := mapM_mem' hl hp
      cases q with
      | ty lo' t0 b0 =>
        simp only [supersuperfyWPred, gen_bind_ok, gen_pure_ok, WPred.ty.injEq] at k
        obtain ⟨t', ht', b', hb', rfl, rfl, rfl⟩ := k
        obtain ⟨x, hx, k⟩ := supersuperfyBounds_from hb' hy
        exact ⟨t0, x, ⟨_, b0, by rw [hn]; exact hq, rfl, hx⟩, supersuperfy_same ht', supersuperfyBound_same k⟩
      | lt _ _ => simp only [supersuperfyWPred, gen_pure_ok, reduceCtorEq] at k

/-- The same for the call that the function itself makes.  If expectations are stored by type, it gives an argument for each
parameter that the method of the store is declared with, and what is asked of them is in the generics of the struct, or
in those of the function as the user wrote them.  Otherwise no types are given. -/
theorem C91_call (b : Builder) (f : MockFn) (hs : Wf (b.structGenerics.getD {}))
    (hw : Wf b.sig.generics) (h : build b = .ok f) :
    ∃ s ∈ f.sites (b.structGenerics.getD {}), ∃ args,
      s.name = "call" ∧ s.outer = [b.structGenerics.getD {}, b.sig.generics] ∧ s.tys = [.path false [.mk "call" args]] ∧
      (f.isStored = true → ∃ d ∈ f.sites (b.structGenerics.getD {}), ∃ g,
        DeclaresOwn d "GenericExpectations::call" g ∧ ArgsFit g args ∧
        (∀ n y, TyBound g n y → TyBound (b.structGenerics.getD {}) n y ∨
          ∃ x, TyBound b.sig.generics n x ∧ MeansSameBound b.levels x y) ∧
        ∀ ls t y, WhereTy g ls t y → (∃ ls', WhereTy (b.structGenerics.getD {}) ls' t y) ∨
          ∃ ls' t0 x, WhereTy b.sig.generics ls' t0 x ∧ MeansSame b.levels t0 t ∧ MeansSameBound b.levels x y) ∧
      (f.isStored = false → ∀ l, args = .angle l → ∀ a ∈ l, argKind a ≠ some .ty) := by
  obtain ⟨st⟩ := build_steps h
  obtain ⟨wf, hsig⟩ := steps_genericsWf st hw
  have pt := steps_parts st hs wf
  refine ⟨Site.mk "call" [b.structGenerics.getD {}, f.sig.generics] [] [] []
    [tgTy "call" (if f.isMethodGeneric || f.isStatic then f.egenerics else f.callGenerics)], ?_, _, rfl,
    by rw [hsig], rfl, fun hst => ?_, fun hst l e a ha => ?_⟩
  · simp only [MockFn.sites, List.mem_append]
    exact .inr List.mem_cons_self
  · have hg : (f.isMethodGeneric || f.isStatic) = true := by
      simp only [MockFn.isStored, Bool.and_eq_true, Bool.or_eq_true] at hst ⊢
      exact hst.2.symm
    refine ⟨Site.mk "GenericExpectations::call" [] [f.egenerics] [] []
      (f.argTys ++ f.output :: tgTy "Expectations" f.egenerics :: f.fnParamTys), ?_, f.egenerics,
      ⟨rfl, rfl⟩, ?_, fun n y k => ?_, fun ls t y k => ?_⟩
    · simp only [MockFn.sites, List.mem_append]
      refine .inl (.inl (.inl (.inr ?_)))
      rw [MockFn.storeSites, if_pos hst]
      exact List.mem_cons_of_mem _ List.mem_cons_self
    · rw [if_pos hg]; exact fits_tg _
    · obtain ⟨b1, -⟩ := split_bounds st.sgen
      obtain ⟨c1, -⟩ := split_bounds st.mgen
      rcases (pt.ct n y).1 ((pt.et n y).1 k) with k | k
      · exact .inl (b1 n y k)
      · obtain ⟨x, ⟨p, hp, e, hx⟩, m⟩ := (supersuperfyGenerics_from st.gens).1 n y (c1 n y k)
        cases hc : b.concretize with
        | true => rw [(steps_concretized st hc).1] at hp; cases hp
        | false =>
        have hd := st.prep
        simp only [prepare, hc, Bool.false_eq_true, if_false, gen_bind_ok, gen_pure_ok, Prod.mk.injEq] at hd
        obtain ⟨⟨x', y', z⟩, hd, hx', -, -, -⟩ := hd
        dsimp only at hx'
        subst hx'
        exact .inr ⟨x, ⟨p, ((minus_mem (C50_closures_partial _ _ _ _ _ hd).1 _).1 hp).1, e, hx⟩, m⟩
    · obtain ⟨-, b2⟩ := split_bounds st.sgen
      obtain ⟨-, c2⟩ := split_bounds st.mgen
      rcases (pt.cw t y).1 ((pt.ew t y).1 ⟨ls, k⟩) with ⟨ls', k⟩ | ⟨ls', k⟩
      · exact .inl ⟨ls', b2 ls' t y k⟩
      · obtain ⟨t0, x, ⟨lo, bs, hp, e, hx⟩, m⟩ := (supersuperfyGenerics_from st.gens).2 ls' t y (c2 ls' t y k)
        cases hc : b.concretize with
        | true => rw [(steps_concretized st hc).1] at hp; cases hp
        | false =>
        have hd := st.prep
        simp only [prepare, hc, Bool.false_eq_true, if_false, gen_bind_ok, gen_pure_ok, Prod.mk.injEq] at hd
        obtain ⟨⟨x', y', z⟩, hd, hx', -, -, -⟩ := hd
        dsimp only at hx'
        subst hx'
        exact .inr ⟨ls', t0, x, ⟨lo, bs, ((minus_mem (C50_closures_partial _ _ _ _ _ hd).2.1 _).1 hp).1, e, hx⟩, m⟩
  · have none : ∀ g : Generics, ¬ IsGeneric g →
        (if g.params = [] then Args.none else .angle (g.params.map paramAsArg)) = .angle l → argKind a ≠ some .ty := by
      intro g hg e
      split at e
      · cases e
      · cases e
        obtain ⟨p, hp, rfl⟩ := List.mem_map.1 ha
        cases p with
        | ty p => exact absurd (.inl ⟨p.id, p, hp, rfl⟩) hg
        | lt _ => simp [paramAsArg, argKind]
        | const _ _ => simp [paramAsArg, argKind]
    by_cases hg : (f.isMethodGeneric || f.isStatic) = true
    · rw [if_pos hg] at e
      refine none _ (fun k => ?_) e
      have := (isGeneric_expectation f).2 k
      rw [MockFn.isStored, this, Bool.or_comm, hg] at hst
      cases hst
    · rw [if_neg hg] at e
      refine none _ (fun k => hg ?_) e
      rw [(isGeneric_method f).2 k, Bool.true_or]

end Mockall.Props
