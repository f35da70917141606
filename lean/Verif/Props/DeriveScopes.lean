import Verif.Lemmas.ScopesSites

/-! # C79: the generated code declares what it uses -/

namespace Mockall.Props

open Derive Spec

/-! ## From the signature -/

theorem ltParams_mem {g : Generics} {p : LtParam} : p ∈ ltParams g ↔ .lt p ∈ g.params := by
  simp only [ltParams, List.mem_filterMap]
  constructor
  · rintro ⟨q, hq, e⟩
    cases q <;> simp only [Option.some.injEq, reduceCtorEq] at e
    subst e
    exact hq
  · exact fun h => ⟨_, h, rfl⟩

/-- What happens to the function's generics before they are split. -/
structure Prepared (g dg : Generics) : Prop where
  wf : Wf dg
  lts : ∀ a, a ∈ lifetimes dg ↔ a ∈ lifetimes g
  params : ∀ p ∈ ltParams dg, p ∈ ltParams g
  bounds : ∀ a ∈ boundLts dg, a ∈ boundLts g

theorem declosure_prepared {g dg : Generics} {l m : List FnArg} {c : List CallArg} (hw : Wf g)
    (h : declosurefy g l = .ok (dg, m, c)) : Prepared g dg := by
  obtain ⟨hp, hq, -⟩ := C50_closures_partial _ _ _ _ _ h
  refine ⟨?_, fun a => ?_, fun p k => ?_, fun a k => ?_⟩
  · simp only [declosurefy, gen_bind_ok, gen_pure_ok, Prod.mk.injEq] at h
    obtain ⟨_, -, _, -, _, -, _, -, rfl, -, -⟩ := h
    intro ha
    simp only [declosureGenerics] at ha ⊢
    split at ha
    · assumption
    · rw [hw ha]; rfl
  · simp only [lifetimes, List.mem_map, ltParams_mem, minus_mem hp]
    constructor
    · rintro ⟨p, ⟨hp, -⟩, e⟩; exact ⟨p, hp, e⟩
    · rintro ⟨p, hp, e⟩; exact ⟨p, ⟨hp, fun ⟨q, e, _⟩ => by cases e⟩, e⟩
  · rw [ltParams_mem] at k ⊢
    exact ((minus_mem hp _).1 k).1
  · rw [mem_boundLts] at k ⊢
    rcases k with ⟨p, h1, h2⟩ | ⟨p, h1, h2⟩
    · exact .inl ⟨p, ((minus_mem hp _).1 h1).1, h2⟩
    · exact .inr ⟨p, ((minus_mem hq _).1 h1).1, h2⟩

theorem supersuperfy_prepared {n : Nat} {g g' : Generics} (hw : Wf g) (h : supersuperfyGenerics n g = .ok g') :
    Prepared g g' := by
  obtain ⟨hk, ha⟩ := supersuperfyGenerics_keys h
  refine ⟨?_, fun a => ?_, fun p k => ?_, fun a => supersuperfyGenerics_lts h⟩
  · intro hf
    rw [ha] at hf
    have := hw hf
    rw [this] at hk
    simpa using hk
  · rw [lifetimes_key, lifetimes_key, hk]
  · rw [ltParams_mem] at k ⊢
    simp only [supersuperfyGenerics, gen_bind_ok] at h
    obtain ⟨ps, hps, h⟩ := h
    have : g'.params = ps := by
      split at h
      · simp only [gen_pure_ok] at h; subst h; rfl
      · simp only [gen_bind_ok, gen_pure_ok] at h; obtain ⟨_, _, rfl⟩ := h; rfl
    rw [this] at k
    obtain ⟨q, hq, e⟩ := mapM_source hps _ k
    cases q with
    | ty q =>
      simp only [supersuperfyGParam, gen_bind_ok] at e
      obtain ⟨_, _, e⟩ := e
      split at e
      · simp at e
      · simp only [gen_bind_ok, gen_pure_ok] at e; obtain ⟨_, _, e⟩ := e; cases e
    | lt q => simp only [supersuperfyGParam, gen_pure_ok] at e; rw [← e]; exact hq
    | const i t => simp only [supersuperfyGParam, gen_pure_ok] at e; cases e

theorem Prepared.trans {g h k : Generics} (a : Prepared g h) (b : Prepared h k) : Prepared g k :=
  ⟨b.wf, fun x => (b.lts x).trans (a.lts x), fun p hp => a.params p (b.params p hp), fun x hx => a.bounds x (b.bounds x hx)⟩

theorem steps_prepared {b : Builder} {f : MockFn} (s : Steps b f) (hc : b.concretize = false) (hw : Wf b.sig.generics) :
    Prepared b.sig.generics s.dg' ∧ Pointwise (ArgBoxes b.sig.generics) b.sig.inputs s.inputs ∧ f.sig = b.sig := by
  have hp := s.prep
  simp only [prepare, hc, Bool.false_eq_true, if_false, gen_bind_ok, gen_pure_ok, Prod.mk.injEq] at hp
  obtain ⟨⟨x, y, z⟩, hd, hx, hy, -, hs⟩ := hp
  dsimp only at hx hy hs
  subst hx hy
  have h1 := declosure_prepared hw hd
  exact ⟨h1.trans (supersuperfy_prepared h1.wf s.gens), (C50_closures_partial _ _ _ _ _ hd).2.2.1, hs.symm⟩

/-- The lifetimes of the expectation, and those in `for<..>`. -/
theorem build_lts {b : Builder} {f : MockFn} (s : Steps b f) (hc : b.concretize = false)
    (hs : Wf (b.structGenerics.getD {})) (hw : Wf b.sig.generics)
    (hp : ∀ a, IsLtParam (b.structGenerics.getD {}) b.sig.generics a →
      (∀ t ∈ argTypes s.inputs, PlainLt a t) ∧ PlainLtRet a b.sig.output) (a : Lt) :
    (ELt f a ↔ IsLtParam (b.structGenerics.getD {}) b.sig.generics a ∧ BehindLt b.sig.output a) ∧
    (ALt f a ↔ IsLtParam (b.structGenerics.getD {}) b.sig.generics a ∧ (ArgLt s.inputs a ∨ SelfLt s.inputs a) ∧
      ¬ BehindLt b.sig.output a) := by
  obtain ⟨pr, -, -⟩ := steps_prepared s hc hw
  obtain ⟨-, -, ho⟩ := build_output s.out
  have hA : ∀ A, argLts s.inputs = .ok A → ∀ a, IsLtParam (b.structGenerics.getD {}) b.sig.generics a →
      (a ∈ A ↔ ArgLt s.inputs a ∨ SelfLt s.inputs a) := fun A h a ha => argLts_plain h (hp a ha).1
  have hR : ∀ R, retLts (.ty f.ownedOutput) = .ok R → ∀ a, IsLtParam (b.structGenerics.getD {}) b.sig.generics a →
      (a ∈ R ↔ BehindLt b.sig.output a) := by
    intro R h a ha
    rw [retLts, ho] at h
    exact find_plain h (plainRet_behind (hp a ha).2)
  have f1 := split_facts hs s.sgen (fun A h a ha => hA A h a (.inl ha)) (fun R h a ha => hR R h a (.inl ha)) a
  have f2 := split_facts pr.wf s.mgen (fun A h a ha => hA A h a (.inr ((pr.lts a).1 ha)))
    (fun R h a ha => hR R h a (.inr ((pr.lts a).1 ha))) a
  obtain ⟨t1, -⟩ := split_kept hs s.sgen
  obtain ⟨t2, -⟩ := split_kept pr.wf s.mgen
  obtain ⟨w1, -⟩ := split_typeParams hs s.sgen
  obtain ⟨w2, -⟩ := split_typeParams pr.wf s.mgen
  rw [pr.lts] at f2
  constructor
  · rw [ELt, lifetimes_key, s.egen, merge_mem_keys (merge_weak (ltsToGenerics_weak _)) (ltsToGenerics_weak _),
      merge_mem_keys (by rw [s.cgen]; exact merge_weak w2) (ltsToGenerics_weak _), s.cgen, merge_mem_keys w1 w2,
      ← lifetimes_key (ltsToGenerics _), ← lifetimes_key (ltsToGenerics _), ltsToGenerics_lifetimes,
      ltsToGenerics_lifetimes, f1.2, f2.2, IsLtParam]
    constructor
    · rintro (((h | h) | h) | h)
      · exact absurd h (t1 a)
      · exact absurd h (t2 a)
      · exact ⟨.inl h.1, h.2⟩
      · exact ⟨.inr h.1, h.2⟩
    · rintro ⟨h | h, k⟩
      · exact .inl (.inr ⟨h, k⟩)
      · exact .inr ⟨h, k⟩
  · have : ALt f a ↔ a ∈ s.sal.map LtParam.lt ∨ a ∈ s.mal.map LtParam.lt := by
      rw [ALt, s.alts, List.mem_map, List.mem_map, List.mem_map]
      simp only [List.mem_eraseDups, List.mem_append]
      constructor
      · rintro ⟨p, h | h, e⟩
        · exact .inl ⟨p, h, e⟩
        · exact .inr ⟨p, h, e⟩
      · rintro (⟨p, h, e⟩ | ⟨p, h, e⟩)
        · exact ⟨p, .inl h, e⟩
        · exact ⟨p, .inr h, e⟩
    rw [this, f1.1, f2.1, IsLtParam]
    constructor
    · rintro (h | h)
      · exact ⟨.inl h.1, h.2⟩
      · exact ⟨.inr h.1, h.2⟩
    · rintro ⟨h | h, k⟩
      · exact .inl ⟨h, k⟩
      · exact .inr ⟨h, k⟩

theorem buildArgs_refPred {n : Nat} : ∀ {l : List FnArg} {as : List BArg} {st : Bool},
    buildArgs n l = .ok (as, st) → ∀ c ∈ as, freeLts c.refPredTy = freeLts c.predTy
  | [], as, st, h => by
    simp only [buildArgs, gen_pure_ok, Prod.mk.injEq] at h
    rw [← h.1]; simp
  | .typed a p t :: l, as, st, h => by
    simp only [buildArgs, gen_bind_ok, gen_pure_ok, Prod.mk.injEq] at h
    obtain ⟨c, hc, ⟨as', st'⟩, hl, rfl, -⟩ := h
    obtain ⟨-, k2, k3⟩ := buildArg_free hc
    intro x hx
    rcases List.mem_cons.1 hx with rfl | hx
    · rw [k2, k3]
    · exact buildArgs_refPred hl x hx
  | .receiver r m c t :: l, as, st, h => by
    simp only [buildArgs, gen_bind_ok, gen_pure_ok, Prod.mk.injEq] at h
    obtain ⟨⟨as', st'⟩, hl, rfl, -⟩ := h
    exact buildArgs_refPred hl

theorem output_static {n : Nat} {r : Ret} {o oo : Ty} {bx : Bool} (h : buildOutput n r = .ok (o, oo, bx))
    (hr : ∀ m, ¬ RefReturn m r) : freeLts o = freeLts oo := by
  obtain ⟨h1, h2, -⟩ := build_output h
  rw [h1, h2]
  cases r with
  | unit => rfl
  | ty t =>
    cases t with
    | ref lt m e =>
      by_cases hs : lt = some "static"
      · simp [behind, hs, freeLtsRet]
      · exact absurd ⟨lt, e, rfl, hs⟩ (hr m)
    | _ => rfl

theorem scope_facts {b : Builder} {f : MockFn} (s : Steps b f) (hc : b.concretize = false)
    (hs : Wf (b.structGenerics.getD {})) (hw : Wf b.sig.generics)
    (H : SimpleLts (b.structGenerics.getD {}) b.sig.generics s.inputs b.sig.output) :
    ScopeFacts (b.structGenerics.getD {}) f := by
  obtain ⟨pr, -, hsig⟩ := steps_prepared s hc hw
  obtain ⟨o1, o2, -⟩ := build_output s.out
  obtain ⟨t1, u1, a1, r1⟩ := split_kept hs s.sgen
  obtain ⟨t2, u2, a2, r2⟩ := split_kept pr.wf s.mgen
  obtain ⟨w1, -⟩ := split_typeParams hs s.sgen
  obtain ⟨w2, -⟩ := split_typeParams pr.wf s.mgen
  have hE := fun a => (build_lts s hc hs hw H.plain a).1
  have none : ∀ g : Generics, (∀ a, (ParamKind.lt, a) ∉ g.params.map GParam.key) → lifetimes g = [] :=
    fun g h => List.eq_nil_iff_forall_not_mem.2 fun a k => h a ((lifetimes_key g a).1 k)
  have ub1 : Unbound f.typeGenerics := fun a ha hn => (H.unbound a hn).1 (u1 a ha)
  have ub2 : Unbound f.callGenerics := fun a ha hn => (H.unbound a hn).2 (pr.bounds a (u2 a ha))
  have ubc : Unbound f.cgenerics := by
    intro a ha
    rw [s.cgen] at ha
    exact (merge_boundLts ha).elim (ub1 a) (ub2 a)
  have al : ∀ p ∈ s.sal ++ s.mal, p.bounds = [] := fun p hp =>
    H.free p ((List.mem_append.1 hp).imp (a1 p) fun k => pr.params p (a2 p k))
  have rl1 : ∀ p ∈ s.srl, p.bounds = [] := fun p hp => H.free p (.inl (r1 p hp))
  have rl2 : ∀ p ∈ s.mrl, p.bounds = [] := fun p hp => H.free p (.inr (pr.params p (r2 p hp)))
  have kind : f.kind = .static ↔ ∀ m, ¬ RefReturn m b.sig.output := by
    have h0 := output_ref s false
    have h1 := output_ref s true
    simp only [Bool.false_eq_true, if_false, if_true] at h0 h1
    rw [Bool.forall_bool, ← h0, ← h1, MockFn.kind]
    cases f.returnRef <;> cases f.returnRefmut <;> simp
  exact {
    tl := none _ t1
    ml := none _ t2
    cl := none _ fun a k => by
      rw [s.cgen, merge_mem_keys w1 w2] at k
      exact k.elim (t1 a) (t2 a)
    tb := ub1
    mb := ub2
    cb := ubc
    eb := by
      intro a ha
      rw [s.egen] at ha
      rcases merge_boundLts ha with ha | ha
      · rcases merge_boundLts ha with ha | ha
        · exact ubc a ha
        · exact absurd ha (ltsToGenerics_boundLts rl1 a)
      · exact absurd ha (ltsToGenerics_boundLts rl2 a)
    ab := fun p hp => by
      rw [s.alts, List.mem_eraseDups] at hp
      exact al p hp
    er := fun a ha => by rw [hsig]; exact ((hE a).1 ha).1
    gl := fun ha => H.fresh ((hE _).1 ha).1
    rp := buildArgs_refPred s.args
    oo := fun a ha => by rw [o2] at ha; rw [o1]; exact behind_free ha
    st := fun h => output_static s.out (kind.1 h)
    nr := fun h => by
      obtain ⟨k1, k2⟩ := s.stat h
      simp [MockFn.kind, k1, k2] }

theorem only_args {P : Lt → Prop} {b : Builder} {f : MockFn} (s : Steps b f) :
    (Only P f.argTys ↔ ∀ a, NamedLt a → ArgLt s.inputs a → P a) ∧
    (Only P f.predTys ↔ ∀ a, NamedLt a → SeenLt s.inputs a → P a) := by
  obtain ⟨h1, h2, -⟩ := buildArgs_free s.args
  have k1 := fun a => mem_of_maps h1 a
  have k2 := fun a => mem_of_maps h2 a
  constructor
  · refine forall_congr' fun a => forall_congr' fun _ => ?_
    rw [ArgLt, ← k1 a]
    simp only [MockFn.argTys, List.mem_map]
    constructor
    · rintro h ⟨c, hc, k⟩; exact h ⟨_, ⟨c, hc, rfl⟩, k⟩
    · rintro h ⟨_, ⟨c, hc, rfl⟩, k⟩; exact h ⟨c, hc, k⟩
  · refine forall_congr' fun a => forall_congr' fun _ => ?_
    rw [SeenLt, ← k2 a]
    simp only [MockFn.predTys, List.mem_map]
    constructor
    · rintro h ⟨c, hc, k⟩; exact h ⟨_, ⟨c, hc, rfl⟩, k⟩
    · rintro h ⟨_, ⟨c, hc, rfl⟩, k⟩; exact h ⟨c, hc, k⟩

/-! ## Expectations that are stored by type -/

theorem any_ty (g : Generics) : g.params.any (fun | .ty _ => true | _ => false) = true ↔ ∃ n, HasTyParam g n := by
  rw [List.any_eq_true]
  constructor
  · rintro ⟨p, hp, h⟩
    cases p with
    | ty p => exact ⟨p.id, p, hp, rfl⟩
    | lt p => cases h
    | const i t => cases h
  · rintro ⟨n, p, hp, -⟩
    exact ⟨_, hp, rfl⟩

theorem tyParams_nil (g : Generics) : tyParams g = [] ↔ ¬ ∃ n, HasTyParam g n := by
  rw [List.eq_nil_iff_forall_not_mem]
  simp only [tyParams, List.mem_filterMap, HasTyParam]
  constructor
  · rintro h ⟨n, p, hp, -⟩
    exact h p ⟨_, hp, rfl⟩
  · rintro h p ⟨q, hq, e⟩
    cases q <;> simp only [Option.some.injEq, reduceCtorEq] at e
    exact h ⟨_, _, hq, rfl⟩

/-- Is there a type parameter or a where clause? -/
def IsGeneric (g : Generics) : Prop := (∃ n, HasTyParam g n) ∨ g.preds ≠ none

theorem split_generic {g tg : Generics} {args : List FnArg} {rt : Ret} {al rl : List LtParam}
    (hg : Wf g) (h : splitLifetimes g args rt = .ok (tg, al, rl)) :
    IsGeneric tg ↔ (∃ n, HasTyParam g n) ∨ (g.angle = false ∧ g.preds ≠ none) := by
  have ht := (split_typeParams hg h).2
  simp only [IsGeneric, ht]
  cases ha : g.angle with
  | false =>
    rw [C45_no_params g args rt ha] at h
    cases h
    simp
  | true =>
    have hp := (C45_split_partial g args rt tg al rl ha h).2.1
    rw [hp]
    by_cases hn : ∃ n, HasTyParam g n
    · simp [hn]
    · simp [hn, (tyParams_nil g).2 hn]

theorem merge_preds (x y : Generics) : (mergeGenerics x y).preds ≠ none ↔ x.preds ≠ none ∨ y.preds ≠ none := by
  have hw : ∀ o w : Option (List WPred), mergeWhere o w ≠ none ↔ o ≠ none ∨ w ≠ none := by
    intro o w
    cases o <;> cases w <;> simp [mergeWhere]
  show mergeWhere _ _ ≠ none ↔ _
  rw [hw]
  rcases mergeParams_preds x y with e | ⟨e', e⟩
  · rw [e]
  · rw [e, e']; simp

theorem ltsToGenerics_preds (l : List LtParam) : (ltsToGenerics l).preds = none := by
  unfold ltsToGenerics
  split <;> rfl

theorem supersuperfyGenerics_preds {n : Nat} {g g' : Generics} (h : supersuperfyGenerics n g = .ok g') :
    g'.preds ≠ none ↔ g.preds ≠ none := by
  simp only [supersuperfyGenerics, gen_bind_ok] at h
  obtain ⟨ps, hps, h⟩ := h
  split at h
  · simp only [gen_pure_ok] at h; subst h; exact Iff.rfl
  · rename_i hn
    simp only [gen_bind_ok, gen_pure_ok] at h; obtain ⟨_, _, rfl⟩ := h; simp [hn]

theorem isGeneric_method (f : MockFn) : f.isMethodGeneric = true ↔ IsGeneric f.callGenerics := by
  rw [MockFn.isMethodGeneric, Bool.or_eq_true]
  exact or_congr (any_ty _) Option.isSome_iff_ne_none

theorem isGeneric_expectation (f : MockFn) : f.isExpectationGeneric = true ↔ IsGeneric f.egenerics := by
  rw [MockFn.isExpectationGeneric, Bool.or_eq_true]
  exact or_congr (any_ty _) Option.isSome_iff_ne_none

theorem declosure_generic {g dg : Generics} {l m : List FnArg} {c : List CallArg} (hw : Wf g)
    (h : declosurefy g l = .ok (dg, m, c)) :
    ((∃ n, HasTyParam dg n) ∨ (dg.angle = false ∧ dg.preds ≠ none)) ↔ OwnGenerics g := by
  obtain ⟨hp, hq, -⟩ := C50_closures_partial _ _ _ _ _ h
  have hwf := (declosure_prepared hw h).wf
  simp only [declosurefy, gen_bind_ok, gen_pure_ok, Prod.mk.injEq] at h
  obtain ⟨_, -, hm, -, _, -, _, -, rfl, -, -⟩ := h
  refine or_congr ?_ (and_congr ?_ ?_)
  · refine exists_congr fun n => ?_
    constructor
    · rintro ⟨p, h, rfl⟩
      obtain ⟨h, k⟩ := (minus_mem hp _).1 h
      exact ⟨⟨p, h, rfl⟩, fun c => k ⟨p, rfl, c⟩⟩
    · rintro ⟨⟨p, h, rfl⟩, k⟩
      exact ⟨p, (minus_mem hp _).2 ⟨h, fun ⟨q, e, c⟩ => by cases e; exact k c⟩, rfl⟩
  · have : (declosureGenerics hm g).angle = false ↔ (declosureGenerics hm g).params = [] := by
      refine ⟨hwf, fun k => ?_⟩
      simp only [declosureGenerics] at k ⊢
      rw [if_pos k]
    rw [this, List.eq_nil_iff_forall_not_mem]
    simp only [minus_mem hp]
    exact forall_congr' fun p => ⟨fun h k => Classical.byContradiction fun n => h ⟨k, n⟩, fun h k => k.2 (h k.1)⟩
  · have : (declosureGenerics hm g).preds ≠ none ↔ (declosureGenerics hm g).preds.getD [] ≠ [] := by
      simp only [declosureGenerics]
      cases g.preds with
      | none => simp
      | some wc =>
        dsimp only
        split
        · simp
        · rename_i hn; simpa using hn
    rw [this, ne_eq, List.eq_nil_iff_forall_not_mem]
    simp only [minus_mem hq, Classical.not_forall, Classical.not_not]

/-- Which functions have expectations that are stored by the types of the call. -/
theorem C79_stored (b : Builder) (f : MockFn) (hc : b.concretize = false) (hs : Wf (b.structGenerics.getD {}))
    (hw : Wf b.sig.generics) (h : build b = .ok f) :
    (f.isMethodGeneric = true ↔ OwnGenerics b.sig.generics) ∧
    (f.isStored = true ↔ StoredByType (b.structGenerics.getD {}) b.sig.generics b.sig.inputs) := by
  obtain ⟨s⟩ := build_steps h
  obtain ⟨pr, hbox, -⟩ := steps_prepared s hc hw
  have hp := s.prep
  simp only [prepare, hc, Bool.false_eq_true, if_false, gen_bind_ok, gen_pure_ok, Prod.mk.injEq] at hp
  obtain ⟨⟨x, y, z⟩, hd, hx, -, -, -⟩ := hp
  dsimp only at hx
  subst hx
  obtain ⟨kk, ka⟩ := supersuperfyGenerics_keys s.gens
  have hty : ∀ n, HasTyParam s.dg' n ↔ HasTyParam s.dg n := fun n => by rw [has_key, has_key, kk]
  have hm : f.isMethodGeneric = true ↔ OwnGenerics b.sig.generics := by
    rw [isGeneric_method, split_generic pr.wf s.mgen, ← declosure_generic hw hd, ka, supersuperfyGenerics_preds s.gens]
    simp only [hty]
  refine ⟨hm, ?_⟩
  have he : f.isExpectationGeneric = true ↔ StructGenerics (b.structGenerics.getD {}) ∨ f.isMethodGeneric = true := by
    rw [isGeneric_expectation, isGeneric_method, StructGenerics, ← split_generic hs s.sgen]
    obtain ⟨w1, -⟩ := split_typeParams hs s.sgen
    obtain ⟨w2, -⟩ := split_typeParams pr.wf s.mgen
    have hpar : ∀ n, HasTyParam f.egenerics n ↔ HasTyParam f.typeGenerics n ∨ HasTyParam f.callGenerics n := by
      intro n
      rw [has_key, s.egen, merge_mem_keys (merge_weak (ltsToGenerics_weak _)) (ltsToGenerics_weak _),
        merge_mem_keys (by rw [s.cgen]; exact merge_weak w2) (ltsToGenerics_weak _), s.cgen,
        merge_mem_keys w1 w2, ← has_key, ← has_key]
      simp only [ltsToGenerics_noTy, or_false]
    have hpr : f.egenerics.preds ≠ none ↔ f.typeGenerics.preds ≠ none ∨ f.callGenerics.preds ≠ none := by
      rw [s.egen, merge_preds, merge_preds, ltsToGenerics_preds, ltsToGenerics_preds, s.cgen, merge_preds]
      simp
    simp only [IsGeneric, hpar, hpr, exists_or]
    constructor
    · rintro ((h | h) | (h | h)) <;> simp [h]
    · rintro ((h | h) | (h | h)) <;> simp [h]
  have stat : f.isStatic = true ↔ ¬ IsMethod b.sig.inputs := by
    rw [buildArgs_static s.args, isMethod_pointwise hbox]
  rw [MockFn.isStored, Bool.and_eq_true, Bool.or_eq_true, he, stat, StoredByType, hm]
  constructor
  · rintro ⟨h | h, k | k⟩
    · exact .inr ⟨k, h⟩
    · exact .inl k
    · exact .inl h
    · exact .inl h
  · rintro (h | ⟨h, k⟩)
    · exact ⟨.inr h, .inr h⟩
    · exact ⟨.inl k, .inl h⟩

/-- C79 for lifetimes.  The generated code declares every lifetime that it uses iff (1) no lifetime in the value
returned is also in what predicates see of an argument; (2) if a mutable reference is returned, or expectations are
stored by type, all lifetimes of the arguments are in the value returned; (3) the reference that is returned has a
lifetime of an argument or of `self`, or of the value behind it; if expectations are stored by type, the last; (4) a
static function has no lifetime in what it returns; (5) a generic method that returns a reference has no lifetime of
its own behind it. -/
theorem C79_lifetimes (b : Builder) (f : MockFn) (hc : b.concretize = false) (hs : Wf (b.structGenerics.getD {}))
    (hw : Wf b.sig.generics) (h : build b = .ok f) :
    ∃ l, Pointwise (ArgBoxes b.sig.generics) b.sig.inputs l ∧
      (SimpleLts (b.structGenerics.getD {}) b.sig.generics l b.sig.output →
        (LifetimesDeclared (b.structGenerics.getD {}) f ↔
          (∀ a, NamedLt a → SeenLt l a → ¬ BehindLt b.sig.output a) ∧
          (RefReturn true b.sig.output ∨ StoredByType (b.structGenerics.getD {}) b.sig.generics b.sig.inputs →
            ∀ a, NamedLt a → ArgLt l a → BehindLt b.sig.output a) ∧
          (∀ a, NamedLt a → a ∈ freeLtsRet b.sig.output →
            BehindLt b.sig.output a ∨ (¬ StoredByType (b.structGenerics.getD {}) b.sig.generics b.sig.inputs ∧
              (ArgLt l a ∨ SelfLt l a))) ∧
          (¬ IsMethod b.sig.inputs → ∀ a, NamedLt a → ¬ BehindLt b.sig.output a) ∧
          (OwnGenerics b.sig.generics → (∃ m, RefReturn m b.sig.output) →
            ∀ a, NamedLt a → BehindLt b.sig.output a → a ∈ lifetimes (b.structGenerics.getD {})))) := by
  obtain ⟨s⟩ := build_steps h
  obtain ⟨-, hbox, -⟩ := steps_prepared s hc hw
  obtain ⟨hmg, hst⟩ := C79_stored b f hc hs hw h
  refine ⟨s.inputs, hbox, fun H => ?_⟩
  rw [← hmg, ← hst, Bool.not_eq_true]
  have F := scope_facts s hc hs hw H
  have hE := fun a => (build_lts s hc hs hw H.plain a).1
  have hA := fun a => (build_lts s hc hs hw H.plain a).2
  obtain ⟨o1, o2, -⟩ := build_output s.out
  have refMut : f.kind = .refMut ↔ RefReturn true b.sig.output := by
    have h0 := output_ref s false
    have h1 := output_ref s true
    simp only [Bool.false_eq_true, if_false, if_true] at h0 h1
    rw [← h1, MockFn.kind]
    cases hr : f.returnRef
    · cases f.returnRefmut <;> simp
    · cases hm : f.returnRefmut
      · simp
      · exact (refReturn_unique (h1.1 hm) (h0.1 hr)).elim
  have anyRef : (f.returnRef || f.returnRefmut) = true ↔ ∃ m, RefReturn m b.sig.output := by
    have h0 := output_ref s false
    have h1 := output_ref s true
    simp only [Bool.false_eq_true, if_false, if_true] at h0 h1
    rw [Bool.or_eq_true, h0, h1, Bool.exists_bool]
  have stat : f.isStatic = true ↔ ¬ IsMethod b.sig.inputs := by
    rw [buildArgs_static s.args, isMethod_pointwise hbox]
  have own : ∀ P : Lt → Prop, Only P [f.ownedOutput] ↔ ∀ a, NamedLt a → BehindLt b.sig.output a → P a := by
    intro P
    simp only [Only, List.mem_singleton, exists_eq_left, o2, BehindLt]
  have out : ∀ P : Lt → Prop, Only P [f.output] ↔ ∀ a, NamedLt a → a ∈ freeLtsRet b.sig.output → P a := by
    intro P
    simp only [Only, List.mem_singleton, exists_eq_left, o1]
  have parg : ∀ a, NamedLt a → ArgLt s.inputs a → IsLtParam (b.structGenerics.getD {}) b.sig.generics a :=
    fun a hn k => H.declared a hn (.inl k)
  have pret : ∀ a, NamedLt a → a ∈ freeLtsRet b.sig.output → IsLtParam (b.structGenerics.getD {}) b.sig.generics a :=
    fun a hn k => H.declared a hn (.inr k)
  have pbeh : ∀ a, NamedLt a → BehindLt b.sig.output a → IsLtParam (b.structGenerics.getD {}) b.sig.generics a :=
    fun a hn k => pret a hn (behind_free k)
  have seen : ∀ a, SeenLt s.inputs a → ArgLt s.inputs a := fun a ⟨t, ht, k⟩ => ⟨t, ht, pointee_sub k⟩
  rw [scope_iff F]
  constructor
  · rintro ⟨c1, c2, c3, c4, c5, c6, c7, c8⟩
    rw [(only_args s).2] at c1
    rw [out] at c3
    refine ⟨fun a hn k => ((hA a).1 (c1 a hn k)).2.2, fun k a hn ka => ?_, fun a hn k => ?_, fun k a hn kb => ?_,
      fun k kr a hn kb => ?_⟩
    · have := c5 (k.imp refMut.2 id)
      rw [(only_args s).1] at this
      exact ((hE a).1 (this a hn ka)).2
    · cases hst : f.isStored with
      | true =>
        have := c6 hst
        rw [out] at this
        exact .inl ((hE a).1 (this a hn k)).2
      | false =>
        rcases c3 a hn k with e | e
        · exact .inl ((hE a).1 e).2
        · exact .inr ⟨rfl, ((hA a).1 e).2.1⟩
    · exact c7 (stat.2 k) a hn ((hE a).2 ⟨pbeh a hn kb, kb⟩)
    · have := c8 k (anyRef.2 kr)
      rw [own] at this
      exact this a hn kb
  · rintro ⟨d1, d2, d3, d4, d5⟩
    exact {
      pred := (only_args s).2.2 fun a hn k => (hA a).2 ⟨parg a hn (seen a k), .inl (seen a k), d1 a hn k⟩
      arg := (only_args s).1.2 fun a hn k => by
        by_cases hb : BehindLt b.sig.output a
        · exact .inl ((hE a).2 ⟨parg a hn k, hb⟩)
        · exact .inr ((hA a).2 ⟨parg a hn k, .inl k, hb⟩)
      out := (out _).2 fun a hn k => by
        by_cases hb : BehindLt b.sig.output a
        · exact .inl ((hE a).2 ⟨pret a hn k, hb⟩)
        · rcases d3 a hn k with e | ⟨-, e⟩
          · exact absurd e hb
          · exact .inr ((hA a).2 ⟨pret a hn k, e, hb⟩)
      own := (own _).2 fun a hn k => (hE a).2 ⟨pbeh a hn k, k⟩
      amut := fun k => (only_args s).1.2 fun a hn ka =>
        (hE a).2 ⟨parg a hn ka, d2 (k.imp refMut.1 id) a hn ka⟩
      sout := fun k => (out _).2 fun a hn ka => by
        rcases d3 a hn ka with e | ⟨e, -⟩
        · exact (hE a).2 ⟨pret a hn ka, e⟩
        · rw [k] at e; cases e
      stat := fun k a hn ke => d4 (stat.1 k) a hn ((hE a).1 ke).2
      exp := fun k kr => (own _).2 fun a hn kb => d5 k (anyRef.1 kr) a hn kb }

/-! ## Bounds -/

theorem split_args {g tg : Generics} {args : List FnArg} {rt : Ret} {al rl : List LtParam} {p : LtParam}
    (hg : Wf g) (h : splitLifetimes g args rt = .ok (tg, al, rl)) (hp : p ∈ ltParams g)
    (hA : ∀ A, argLts args = .ok A → p.lt ∈ A) (hR : ∀ R, retLts rt = .ok R → p.lt ∉ R) : p ∈ al := by
  cases ha : g.angle with
  | false =>
    rw [ltParams_mem, hg ha] at hp
    cases hp
  | true =>
    simp only [splitLifetimes, ha, Bool.true_eq_false, if_false, gen_bind_ok, gen_pure_ok,
      Prod.mk.injEq, splitParams_eq] at h
    obtain ⟨A, hA', R, hR', -, rfl, rfl⟩ := h
    exact List.mem_filter.2 ⟨hp, by simpa using ⟨hR R hR', hA A hA'⟩⟩

theorem supersuperfyGenerics_lt {n : Nat} {g g' : Generics} (h : supersuperfyGenerics n g = .ok g') {p : GParam}
    (hp : p ∈ g.params) : ∃ p' ∈ g'.params, supersuperfyGParam n p = .ok p' := by
  simp only [supersuperfyGenerics, gen_bind_ok] at h
  obtain ⟨ps, hps, h⟩ := h
  have he : g'.params = ps := by
    split at h
    · simp only [gen_pure_ok] at h; subst h; rfl
    · simp only [gen_bind_ok, gen_pure_ok] at h; obtain ⟨_, _, rfl⟩ := h; rfl
  rw [he]
  have : ∀ {l : List GParam} {l' : List GParam}, l.mapM (supersuperfyGParam n) = .ok l' → p ∈ l →
      ∃ p' ∈ l', supersuperfyGParam n p = .ok p' := by
    intro l
    induction l with
    | nil => intro _ _ h; cases h
    | cons x l ih =>
      intro l' h hm
      rw [List.mapM_cons] at h
      simp only [gen_bind_ok, gen_pure_ok] at h
      obtain ⟨y, hy, m, hm', rfl⟩ := h
      rcases List.mem_cons.1 hm with rfl | hm
      · exact ⟨y, List.mem_cons_self, hy⟩
      · obtain ⟨z, hz, k⟩ := ih hm' hm
        exact ⟨z, List.mem_cons_of_mem _ hz, k⟩
  exact this hps hp

/-- A lifetime with bounds that is used by the arguments only goes to a `for<..>` with its bounds, which Rust does not
allow. -/
theorem C79_bounded_lifetime (b : Builder) (f : MockFn) (hc : b.concretize = false)
    (hs : Wf (b.structGenerics.getD {})) (hw : Wf b.sig.generics) (h : build b = .ok f) (p : LtParam)
    (hp : p ∈ ltParams (b.structGenerics.getD {}) ∨ p ∈ ltParams b.sig.generics) (hb : p.bounds ≠ []) :
    ∃ l, Pointwise (ArgBoxes b.sig.generics) b.sig.inputs l ∧
      ((∀ t ∈ argTypes l, PlainLt p.lt t) → PlainLtRet p.lt b.sig.output → ArgLt l p.lt ∨ SelfLt l p.lt →
        ¬ BehindLt b.sig.output p.lt → ¬ LifetimesDeclared (b.structGenerics.getD {}) f) := by
  obtain ⟨s⟩ := build_steps h
  obtain ⟨pr, hbox, -⟩ := steps_prepared s hc hw
  refine ⟨s.inputs, hbox, fun h1 h2 h3 h4 H => ?_⟩
  obtain ⟨-, -, ho⟩ := build_output s.out
  have hA : ∀ A, argLts s.inputs = .ok A → p.lt ∈ A := fun A k => (argLts_plain k h1).2 h3
  have hR : ∀ R, retLts (.ty f.ownedOutput) = .ok R → p.lt ∉ R := by
    intro R k m
    rw [retLts, ho] at k
    exact h4 ((find_plain k (plainRet_behind h2)).1 m)
  have hm : p ∈ f.alifetimes := by
    rw [s.alts, List.mem_eraseDups, List.mem_append]
    rcases hp with hp | hp
    · exact .inl (split_args hs s.sgen hp hA hR)
    · refine .inr (split_args pr.wf s.mgen ?_ hA hR)
      have hd := s.prep
      simp only [prepare, hc, Bool.false_eq_true, if_false, gen_bind_ok, gen_pure_ok, Prod.mk.injEq] at hd
      obtain ⟨⟨x, y, z⟩, hd, hx, -, -, -⟩ := hd
      dsimp only at hx
      subst hx
      have hm := (C50_closures_partial _ _ _ _ _ hd).1
      rw [ltParams_mem] at hp ⊢
      obtain ⟨p', k1, k2⟩ := supersuperfyGenerics_lt s.gens
        ((minus_mem hm _).2 ⟨hp, fun ⟨q, e, _⟩ => by cases e⟩)
      simp only [supersuperfyGParam, gen_pure_ok] at k2
      rw [k2]; exact k1
  have hsite : Site.mk "Matcher" [] [f.cgenerics] f.alifetimes (f.refPredTys ++ f.predTys) f.fnParamTys ∈
      f.sites (b.structGenerics.getD {}) := by
    simp only [MockFn.sites, List.mem_append]
    exact .inl (.inl (.inl (.inl (.inl (.inl (.inl (.inr List.mem_cons_self)))))))
  exact hb ((H _ hsite).2 p hm)

theorem supersuperfyBounds_mem {n : Nat} {x : Bound} : ∀ {l l' : List Bound}, supersuperfyBounds n l = .ok l' → x ∈ l →
    ∃ y ∈ l', freeLtsBound y = freeLtsBound x
  | b :: l, l', h, hm => by
    simp only [supersuperfyBounds, gen_bind_ok, gen_pure_ok] at h
    obtain ⟨t', ht, m, hl, rfl⟩ := h
    rcases List.mem_cons.1 hm with rfl | hm
    · exact ⟨t', List.mem_cons_self, supersuperfyBound_free _ _ ht⟩
    · obtain ⟨y, hy, k⟩ := supersuperfyBounds_mem hl hm
      exact ⟨y, List.mem_cons_of_mem _ hy, k⟩

theorem split_wf {g tg : Generics} {args : List FnArg} {rt : Ret} {al rl : List LtParam}
    (hg : Wf g) (h : splitLifetimes g args rt = .ok (tg, al, rl)) : Wf tg := by
  cases ha : g.angle with
  | false => rw [C45_no_params g args rt ha] at h; cases h; exact hg
  | true =>
    simp only [splitLifetimes, ha, Bool.true_eq_false, if_false, gen_bind_ok, gen_pure_ok,
      Prod.mk.injEq] at h
    obtain ⟨_, -, _, -, rfl, -, -⟩ := h
    split
    · exact fun _ => rfl
    · exact fun k => by cases k

theorem split_tyBound {g tg : Generics} {args : List FnArg} {rt : Ret} {al rl : List LtParam} {n : Ident} {x : Bound}
    (h : splitLifetimes g args rt = .ok (tg, al, rl)) (hx : TyBound g n x) : TyBound tg n x := by
  cases ha : g.angle with
  | false => rw [C45_no_params g args rt ha] at h; cases h; exact hx
  | true =>
    have hp := (C45_split_partial g args rt tg al rl ha h).1
    obtain ⟨p, k, e, m⟩ := hx
    refine ⟨p, ?_, e, m⟩
    rw [hp]
    refine List.mem_map_of_mem (List.mem_filterMap.2 ⟨_, k, rfl⟩)

theorem tyBound_lts {g : Generics} {n : Ident} {x : Bound} {a : Lt} (h : TyBound g n x) (ha : a ∈ freeLtsBound x) :
    a ∈ boundLts g := by
  obtain ⟨p, hp, -, hm⟩ := h
  refine mem_boundLts.2 (.inl ⟨_, hp, ?_⟩)
  rw [freeLtsParam]
  have : ∀ l : List Bound, x ∈ l → a ∈ freeLtsBounds l := by
    intro l
    induction l with
    | nil => intro h; cases h
    | cons y l ih =>
      intro h
      rw [freeLtsBounds, List.mem_append]
      rcases List.mem_cons.1 h with rfl | h
      · exact .inl ha
      · exact .inr (ih h)
  exact this _ hm

/-- If the bound of a type parameter uses a lifetime, as `T: 'a` or `T: Trait<'a>`, then the generated code uses this
lifetime where it is not declared. -/
theorem C79_bound_by_lifetime (b : Builder) (f : MockFn) (hc : b.concretize = false)
    (hs : Wf (b.structGenerics.getD {})) (hw : Wf b.sig.generics) (h : build b = .ok f) (n : Ident) (x : Bound) (a : Lt)
    (hx : TyBound (b.structGenerics.getD {}) n x ∨ (TyBound b.sig.generics n x ∧ ¬ Closure b.sig.generics n))
    (ha : a ∈ freeLtsBound x) (hn : NamedLt a) : ¬ LifetimesDeclared (b.structGenerics.getD {}) f := by
  intro H
  obtain ⟨s⟩ := build_steps h
  obtain ⟨pr, hbox, -⟩ := steps_prepared s hc hw
  have w1 := split_wf hs s.sgen
  have w2 := split_wf pr.wf s.mgen
  have hbd : a ∈ boundLts f.cgenerics := by
    rw [s.cgen]
    rcases hx with hx | ⟨hx, hcl⟩
    · exact tyBound_lts ((C46_bounds _ _ w1 w2 n x).2 (.inl (split_tyBound s.sgen hx))) ha
    · have hd := s.prep
      simp only [prepare, hc, Bool.false_eq_true, if_false, gen_bind_ok, gen_pure_ok, Prod.mk.injEq] at hd
      obtain ⟨⟨x', y, z⟩, hd, hx', -, -, -⟩ := hd
      dsimp only at hx'
      subst hx'
      have hm := (C50_closures_partial _ _ _ _ _ hd).1
      obtain ⟨p, hp, rfl, hxb⟩ := hx
      obtain ⟨p', k1, k2⟩ := supersuperfyGenerics_lt s.gens
        ((minus_mem hm _).2 ⟨hp, fun ⟨q, e, c⟩ => by cases e; exact hcl c⟩)
      simp only [supersuperfyGParam, gen_bind_ok] at k2
      obtain ⟨bs, hbs, k2⟩ := k2
      obtain ⟨y, hy, e⟩ := supersuperfyBounds_mem hbs hxb
      have hty : TyBound s.dg' p.id y := by
        split at k2
        · simp only [gen_pure_ok] at k2; subst k2; exact ⟨_, k1, rfl, hy⟩
        · simp only [gen_bind_ok, gen_pure_ok] at k2; obtain ⟨_, _, rfl⟩ := k2; exact ⟨_, k1, rfl, hy⟩
      exact tyBound_lts ((C46_bounds _ _ w1 w2 p.id y).2 (.inr (split_tyBound s.mgen hty))) (e ▸ ha)
  have hsite : Site.mk "Common" [] [f.cgenerics] [] [] [tgTy "Matcher" f.cgenerics] ∈
      f.sites (b.structGenerics.getD {}) := by
    simp only [MockFn.sites, List.mem_append]
    exact .inl (.inl (.inl (.inl (.inl (.inl (.inr List.mem_cons_self))))))
  obtain ⟨g, hg, k⟩ := (H _ hsite).1 a hn (.inl ⟨_, List.mem_singleton.2 rfl, hbd⟩)
  rw [List.nil_append, List.mem_singleton] at hg
  subst hg
  rw [lifetimes_key, s.cgen, merge_mem_keys (.of_wf w1) (.of_wf w2)] at k
  exact k.elim ((split_kept hs s.sgen).1 a) ((split_kept pr.wf s.mgen).1 a)

/-! ## Type parameters -/

theorem tgTy_mentions {m n : Ident} {g : Generics} (h : MentionsName n (leaves (tgTy m g))) : n = m ∨ HasTyParam g n := by
  obtain ⟨b, h⟩ := h
  simp only [tgTy, leaves, leavesSegs, List.append_nil, leavesSeg, List.mem_cons, Leaf.seg.injEq] at h
  rcases h with h | h
  · exact .inl h.1
  · right
    split at h
    · cases h
    · rw [leavesArgs] at h
      have : ∀ l : List GParam, .seg n b ∈ leavesGArgs (l.map paramAsArg) → ∃ p, .ty p ∈ l ∧ p.id = n := by
        intro l
        induction l with
        | nil => intro h; cases h
        | cons p l ih =>
          intro h
          rw [List.map_cons, leavesGArgs, List.mem_append] at h
          rcases h with h | h
          · cases p with
            | lt p => simp [paramAsArg, leavesGArg] at h
            | ty p =>
              simp only [paramAsArg, leavesGArg, Ty.name, Seg.of, leaves, leavesSegs, leavesSeg, leavesArgs, List.append_nil,
                List.mem_singleton, Leaf.seg.injEq] at h
              exact ⟨p, List.mem_cons_self, h.1.symm⟩
            | const i t => simp [paramAsArg, leavesGArg] at h
          · obtain ⟨p, hp, e⟩ := ih h
            exact ⟨p, List.mem_cons_of_mem _ hp, e⟩
      exact this _ h

theorem names_mentions {l : List Ident} {n : Ident} {t : Ty} (ht : t ∈ l.map Ty.name) (h : MentionsName n (leaves t)) :
    n ∈ l := by
  obtain ⟨m, hm, rfl⟩ := List.mem_map.1 ht
  obtain ⟨b, h⟩ := h
  simp only [Ty.name, Seg.of, leaves, leavesSegs, leavesSeg, leavesArgs, List.append_nil, List.mem_singleton,
    Leaf.seg.injEq] at h
  exact h.1 ▸ hm

theorem split_boundMentions {g tg : Generics} {args : List FnArg} {rt : Ret} {al rl : List LtParam} {n : Ident}
    (h : splitLifetimes g args rt = .ok (tg, al, rl)) (hn : BoundMentions n tg) : BoundMentions n g := by
  cases ha : g.angle with
  | false => rw [C45_no_params g args rt ha] at h; cases h; exact hn
  | true =>
    obtain ⟨hp, hq, -⟩ := C45_split_partial g args rt tg al rl ha h
    rcases hn with ⟨p, k, m⟩ | ⟨w, k, m⟩
    · left
      rw [hp, List.mem_map] at k
      obtain ⟨q, k, rfl⟩ := k
      refine ⟨.ty q, ?_, m⟩
      simp only [tyParams, List.mem_filterMap] at k
      obtain ⟨x, k, e⟩ := k
      cases x <;> simp only [Option.some.injEq, reduceCtorEq] at e
      exact e ▸ k
    · right
      rw [hq] at k
      split at k
      · cases k
      · exact ⟨w, k, m⟩

theorem withGuardLt_has {g : Generics} {n : Ident} (h : HasTyParam g n) : HasTyParam (withGuardLt g) n := by
  obtain ⟨p, hp, e⟩ := h
  exact ⟨p, List.mem_append_left _ hp, e⟩

/-- A type parameter of the expectation is declared in all the code that uses it. -/
theorem types_declared {b : Builder} {f : MockFn} (s : Steps b f) (hs : Wf (b.structGenerics.getD {})) (hd : Wf s.dg')
    (n : Ident) (he : HasTyParam f.egenerics n)
    (hn : HasTyParam (b.structGenerics.getD {}) n ∨ HasTyParam f.sig.generics n)
    (hb : ¬ HasTyParam (b.structGenerics.getD {}) n → ¬ BoundMentions n (b.structGenerics.getD {}))
    (hx : n ≠ "Context") :
    ∀ s ∈ f.sites (b.structGenerics.getD {}), Site.mentions s n → Site.declaresTy s n := by
  obtain ⟨w1, t1⟩ := split_typeParams hs s.sgen
  obtain ⟨w2, t2⟩ := split_typeParams hd s.mgen
  have hcd : HasTyParam f.cgenerics n := by
    rw [has_key, s.egen, merge_mem_keys (merge_weak (ltsToGenerics_weak _)) (ltsToGenerics_weak _),
      merge_mem_keys (by rw [s.cgen]; exact merge_weak w2) (ltsToGenerics_weak _)] at he
    rw [has_key]
    rcases he with (he | he) | he
    · exact he
    · exact absurd he (ltsToGenerics_noTy _ _)
    · exact absurd he (ltsToGenerics_noTy _ _)
  have htc : HasTyParam f.typeGenerics n ∨ HasTyParam f.callGenerics n := by
    rw [has_key, s.cgen, merge_mem_keys w1 w2, ← has_key, ← has_key] at hcd
    exact hcd
  have hce : HasTyParam f.callGenerics n → f.isMethodGeneric = true := fun k => (isGeneric_method f).2 (.inl ⟨n, k⟩)
  have hee : f.isExpectationGeneric = true := (isGeneric_expectation f).2 (.inl ⟨n, he⟩)
  have hws : ¬ HasTyParam (b.structGenerics.getD {}) n → HasTyParam f.callGenerics n := fun k =>
    htc.elim (fun k' => absurd ((t1 n).1 k') k) id
  have DE : ∀ {x : Site}, x.generics.head? = some f.egenerics → Site.declaresTy x n := fun {x} k =>
    ⟨_, List.mem_append_right _ (List.mem_of_mem_head? (by rw [k]; rfl)), he⟩
  have DC : ∀ {x : Site}, x.generics.head? = some f.cgenerics → Site.declaresTy x n := fun {x} k =>
    ⟨_, List.mem_append_right _ (List.mem_of_mem_head? (by rw [k]; rfl)), hcd⟩
  have DG : ∀ {x : Site}, x.generics.head? = some (withGuardLt f.egenerics) → Site.declaresTy x n := fun {x} k =>
    ⟨_, List.mem_append_right _ (List.mem_of_mem_head? (by rw [k]; rfl)), withGuardLt_has he⟩
  intro x hxm hm
  simp only [MockFn.sites, List.mem_append] at hxm
  rcases hxm with (((((((hxm | hxm) | hxm) | hxm) | hxm) | hxm) | hxm) | hxm) | hxm
  · unfold MockFn.rfuncSites at hxm
    split at hxm <;> simp only [List.mem_cons, List.not_mem_nil, or_false] at hxm <;>
      rcases hxm with rfl | rfl <;> exact DE rfl
  · simp only [MockFn.matcherSites, List.mem_cons, List.not_mem_nil, or_false] at hxm
    rcases hxm with rfl | rfl <;> exact DC rfl
  · simp only [MockFn.commonSites, List.mem_cons, List.not_mem_nil, or_false] at hxm
    rcases hxm with rfl | rfl | rfl | rfl <;> exact DC rfl
  · simp only [MockFn.expectationSites, List.mem_append, List.mem_cons, List.not_mem_nil, or_false] at hxm
    rcases hxm with (rfl | rfl | rfl | rfl | rfl) | hxm
    iterate 5 exact DE rfl
    unfold MockFn.returnSites at hxm
    split at hxm <;> simp only [List.mem_cons, List.not_mem_nil, or_false] at hxm
    · subst hxm; exact DE rfl
    · rcases hxm with rfl | rfl <;> exact DE rfl
    · rcases hxm with rfl | rfl <;> exact DE rfl
  · simp only [MockFn.expectationsSites, List.mem_cons, List.not_mem_nil, or_false] at hxm
    rcases hxm with rfl | rfl <;> exact DE rfl
  · unfold MockFn.storeSites at hxm
    split at hxm
    · simp only [List.mem_cons, List.not_mem_nil, or_false] at hxm
      rcases hxm with rfl | rfl | rfl <;> exact DE rfl
    · cases hxm
  · unfold MockFn.guardSites at hxm
    split at hxm
    · simp only [MockFn.getSites, hee, if_true, List.mem_append, List.mem_cons, List.not_mem_nil, or_false] at hxm
      rcases hxm with rfl | rfl | rfl | rfl | rfl
      · rcases hm with ⟨_, k, _⟩ | ⟨_, k, _⟩ <;> cases k
      all_goals exact DG rfl
    · cases hxm
  · unfold MockFn.contextSites at hxm
    split at hxm
    · simp only [List.mem_cons, List.not_mem_nil, or_false] at hxm
      rcases hxm with rfl | rfl
      · by_cases k : HasTyParam (b.structGenerics.getD {}) n
        · exact ⟨_, List.mem_cons_self, (t1 n).2 k⟩
        · rcases hm with ⟨g, hg, m⟩ | ⟨t, ht, m⟩
          · rw [List.mem_singleton] at hg
            subst hg
            exact absurd (split_boundMentions s.sgen m) (hb k)
          · rw [List.append_nil] at ht
            exact absurd ((typeParams_has _ _).1 (names_mentions ht m)) k
      · rcases htc with k | k
        · exact ⟨_, List.mem_cons_self, k⟩
        · exact ⟨_, List.mem_cons_of_mem _ List.mem_cons_self, withGuardLt_has k⟩
    · cases hxm
  · simp only [MockFn.outsideSites, List.mem_cons] at hxm
    rcases hxm with rfl | hxm
    · rcases hn with k | k
      · exact ⟨_, List.mem_cons_self, k⟩
      · exact ⟨_, List.mem_cons_of_mem _ List.mem_cons_self, k⟩
    · split at hxm
      · rw [List.mem_singleton] at hxm
        subst hxm
        rcases hm with ⟨_, k, _⟩ | ⟨t, ht, m⟩
        · cases k
        · rw [List.append_nil, List.mem_singleton] at ht
          subst ht
          rcases tgTy_mentions m with k | k
          · exact absurd k hx
          · exact ⟨_, List.mem_cons_self, (t1 n).1 k⟩
      · simp only [List.mem_cons, List.not_mem_nil, or_false] at hxm
        rcases hxm with rfl | rfl
        · rcases htc with k | k
          · exact ⟨_, List.mem_cons_self, (t1 n).1 k⟩
          · exact ⟨_, List.mem_cons_of_mem _ List.mem_cons_self, k⟩
        · by_cases k : HasTyParam (b.structGenerics.getD {}) n
          · exact ⟨_, List.mem_cons_self, k⟩
          · rcases hm with ⟨_, k', _⟩ | ⟨t, ht, m⟩
            · cases k'
            · simp only [hce (hws k), if_true, List.append_nil] at ht
              cases ht

/-- Every type parameter of the struct and of the function is declared in all the code that uses it, other than a
parameter for a closure (`C50_escapes`).  The hypotheses: a parameter of the function is not used in the bounds of the
struct's parameters, where it could only be another type of the same name; and it is not named like the type that
`foo_context` returns. -/
theorem C79_types (b : Builder) (f : MockFn) (hc : b.concretize = false)
    (hs : Wf (b.structGenerics.getD {})) (hw : Wf b.sig.generics) (h : build b = .ok f) (n : Ident)
    (hn : HasTyParam (b.structGenerics.getD {}) n ∨ (HasTyParam b.sig.generics n ∧ ¬ Closure b.sig.generics n))
    (hb : ¬ HasTyParam (b.structGenerics.getD {}) n → ¬ BoundMentions n (b.structGenerics.getD {}))
    (hx : n ≠ "Context") :
    ∀ s ∈ f.sites (b.structGenerics.getD {}), Site.mentions s n → Site.declaresTy s n := by
  have he := (build_typeParams hc hs hw h n).2 hn
  obtain ⟨s⟩ := build_steps h
  obtain ⟨pr, -, hsig⟩ := steps_prepared s hc hw
  rw [s.params, typeParams_has] at he
  exact types_declared s hs pr.wf n he (hn.imp id fun k => hsig ▸ k.1) hb hx

end Mockall.Props
