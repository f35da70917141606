import Verif.Lemmas.ScopesBuild

/-! # Which lifetimes have to be declared where -/

namespace Mockall.Props

open Derive Spec

/-! ## The lifetimes of one function -/

/-- No lifetime has to be declared for the bounds. -/
def Unbound (g : Generics) : Prop := ∀ a ∈ boundLts g, ¬ NamedLt a

/-- What is needed of a function. -/
structure ScopeFacts (sg : Generics) (f : MockFn) : Prop where
  tl : lifetimes f.typeGenerics = []
  ml : lifetimes f.callGenerics = []
  cl : lifetimes f.cgenerics = []
  tb : Unbound f.typeGenerics
  mb : Unbound f.callGenerics
  cb : Unbound f.cgenerics
  eb : Unbound f.egenerics
  ab : ∀ p ∈ f.alifetimes, p.bounds = []
  er : ∀ a ∈ lifetimes f.egenerics, a ∈ lifetimes sg ∨ a ∈ lifetimes f.sig.generics
  gl : "__mockall_lt" ∉ lifetimes f.egenerics
  rp : ∀ c ∈ f.args, freeLts c.refPredTy = freeLts c.predTy
  oo : ∀ a ∈ freeLts f.ownedOutput, a ∈ freeLts f.output
  st : f.kind = .static → freeLts f.output = freeLts f.ownedOutput
  nr : f.isStatic = true → f.kind = .static

/-- Declared by the expectation. -/
def ELt (f : MockFn) (a : Lt) : Prop := a ∈ lifetimes f.egenerics

/-- In a `for<..>`. -/
def ALt (f : MockFn) (a : Lt) : Prop := a ∈ f.alifetimes.map LtParam.lt

/-- All named lifetimes in the types are of the kind `P`. -/
def Only (P : Lt → Prop) (l : List Ty) : Prop := ∀ a, NamedLt a → (∃ t ∈ l, a ∈ freeLts t) → P a

theorem tgTy_free (n : Ident) (g : Generics) : freeLts (tgTy n g) = lifetimes g := by
  have : ∀ l : List GParam, freeLtsGArgs (l.map paramAsArg) =
      (l.filterMap (fun | .lt p => some p | _ => none)).map LtParam.lt := by
    intro l
    induction l with
    | nil => rfl
    | cons p l ih =>
      rw [List.map_cons, freeLtsGArgs, ih]
      cases p <;> rfl
  rw [tgTy, freeLts, freeLtsSegs, freeLtsSegs, freeLtsSeg, List.append_nil]
  split
  · rename_i h; rw [lifetimes, ltParams, h]; rfl
  · exact this g.params

theorem staticize_lts (g : Generics) : ∀ a ∈ lifetimes (staticize g), ¬ NamedLt a := by
  intro a ha
  rw [lifetimes_key] at ha
  simp only [staticize, List.map_map, List.mem_map, Function.comp] at ha
  obtain ⟨p, -, hp⟩ := ha
  cases p with
  | lt q =>
    simp only [GParam.key, Prod.mk.injEq, true_and] at hp
    subst hp
    exact fun h => h.1 rfl
  | ty q => simp [GParam.key] at hp
  | const i t => simp [GParam.key] at hp

theorem withGuardLt_lts (g : Generics) (a : Lt) : a ∈ lifetimes (withGuardLt g) ↔ a ∈ lifetimes g ∨ a = "__mockall_lt" := by
  rw [lifetimes_key, lifetimes_key, withGuardLt]
  simp [GParam.key]

theorem withGuardLt_unbound {g : Generics} (h : Unbound g) : Unbound (withGuardLt g) := by
  intro a ha
  rw [mem_boundLts] at ha
  rcases ha with ⟨p, hp, ha⟩ | ha
  · simp only [withGuardLt, List.mem_append, List.mem_singleton] at hp
    rcases hp with hp | rfl
    · exact h a (mem_boundLts.2 (.inl ⟨p, hp, ha⟩))
    · simp [freeLtsParam] at ha
  · exact h a (mem_boundLts.2 (.inr ha))

/-- A piece of code without `for<..>`. -/
theorem site_plain {s : Site} (hu : s.under = []) (hh : s.hrtb = []) (hb : ∀ g ∈ s.generics, Unbound g) :
    Site.ltsOk s ↔ Only (Site.declares s) s.tys := by
  simp only [Site.ltsOk, hh, Site.uses, hu, Only]
  constructor
  · intro h a hn ht
    exact h.1 a hn (.inr (.inl ht))
  · refine fun h => ⟨fun a hn k => ?_, by simp⟩
    rcases k with ⟨g, hg, k⟩ | k | ⟨⟨_, k, _⟩, _⟩
    · exact absurd hn (hb g hg a k)
    · exact h a hn k
    · cases k

/-- A piece of code with `for<..>`. -/
theorem site_for {s : Site} {A : Lt → Prop} (hA : ∀ a, A a ↔ a ∈ s.hrtb.map LtParam.lt) (hh : ∀ p ∈ s.hrtb, p.bounds = [])
    (hb : ∀ g ∈ s.generics, Unbound g) :
    Site.ltsOk s ↔ Only (Site.declares s) s.tys ∧ Only (fun a => A a ∨ Site.declares s a) s.under := by
  simp only [Site.ltsOk, Site.uses, Only]
  constructor
  · intro h
    refine ⟨fun a hn ht => h.1 a hn (.inr (.inl ht)), fun a hn ht => ?_⟩
    by_cases hm : a ∈ s.hrtb.map LtParam.lt
    · exact .inl ((hA a).2 hm)
    · exact .inr (h.1 a hn (.inr (.inr ⟨ht, hm⟩)))
  · refine fun h => ⟨fun a hn k => ?_, hh⟩
    rcases k with ⟨g, hg, k⟩ | k | ⟨k, hm⟩
    · exact absurd hn (hb g hg a k)
    · exact h.1 a hn k
    · exact (h.2 a hn k).resolve_left fun x => hm ((hA a).1 x)

theorem no_sites : (∀ s ∈ ([] : List Site), Site.ltsOk s) ↔ True := by simp

theorem Only.nil {P : Lt → Prop} : Only P [] := fun _ _ ⟨_, h, _⟩ => by cases h

theorem only_cons {P : Lt → Prop} {t : Ty} {l : List Ty} : Only P (t :: l) ↔ Only P [t] ∧ Only P l := by
  constructor
  · intro h
    exact ⟨fun a hn ⟨u, hu, k⟩ => h a hn ⟨u, by rw [List.mem_singleton] at hu; rw [hu]; exact List.mem_cons_self, k⟩,
      fun a hn ⟨u, hu, k⟩ => h a hn ⟨u, List.mem_cons_of_mem _ hu, k⟩⟩
  · rintro ⟨h, k⟩ a hn ⟨u, hu, m⟩
    rcases List.mem_cons.1 hu with rfl | hu
    · exact h a hn ⟨_, List.mem_singleton.2 rfl, m⟩
    · exact k a hn ⟨u, hu, m⟩

theorem only_append {P : Lt → Prop} {l m : List Ty} : Only P (l ++ m) ↔ Only P l ∧ Only P m := by
  constructor
  · intro h
    exact ⟨fun a hn ⟨u, hu, k⟩ => h a hn ⟨u, List.mem_append_left _ hu, k⟩,
      fun a hn ⟨u, hu, k⟩ => h a hn ⟨u, List.mem_append_right _ hu, k⟩⟩
  · rintro ⟨h, k⟩ a hn ⟨u, hu, x⟩
    rcases List.mem_append.1 hu with hu | hu
    · exact h a hn ⟨u, hu, x⟩
    · exact k a hn ⟨u, hu, x⟩

theorem only_refs {P : Lt → Prop} {l : List Ty} {m : Bool} : Only P (l.map (.ref none m)) ↔ Only P l := by
  simp only [Only, List.mem_map]
  refine forall_congr' fun a => forall_congr' fun _ => ?_
  constructor
  · rintro h ⟨t, ht, k⟩
    exact h ⟨_, ⟨t, ht, rfl⟩, by simpa [freeLts] using k⟩
  · rintro h ⟨_, ⟨t, ht, rfl⟩, k⟩
    exact h ⟨t, ht, by simpa [freeLts] using k⟩

theorem only_names {P : Lt → Prop} {l : List Ident} : Only P (l.map .name) := by
  rintro a - ⟨t, ht, k⟩
  obtain ⟨n, -, rfl⟩ := List.mem_map.1 ht
  simp [Ty.name, freeLts, freeLtsSegs, freeLtsSeg, freeLtsArgs, Seg.of] at k

theorem Only.mono {P Q : Lt → Prop} {l : List Ty} (h : Only P l) (k : ∀ a, P a → Q a) : Only Q l :=
  fun a hn m => k a (h a hn m)

theorem only_congr {P Q : Lt → Prop} {l : List Ty} (k : ∀ a, P a ↔ Q a) : Only P l ↔ Only Q l :=
  ⟨fun h => h.mono fun a => (k a).1, fun h => h.mono fun a => (k a).2⟩

theorem only_tg {P : Lt → Prop} {n : Ident} {g : Generics} : Only P [tgTy n g] ↔ ∀ a, NamedLt a → a ∈ lifetimes g → P a := by
  simp only [Only, List.mem_singleton, exists_eq_left, tgTy_free]

section
variable {sg : Generics} {f : MockFn} (F : ScopeFacts sg f)
include F

theorem lg_unbound : Unbound f.lg := fun a h => absurd h (ltsToGenerics_boundLts F.ab a)

omit F in
theorem lg_lts (a : Lt) : a ∈ lifetimes f.lg ↔ ALt f a := by
  rw [MockFn.lg, ltsToGenerics_lifetimes]; rfl

theorem okE {n : String} {tys : List Ty} :
    Site.ltsOk { name := n, generics := [f.egenerics], tys := tys } ↔ Only (ELt f) tys := by
  rw [site_plain rfl rfl (by intro g hg; rw [List.mem_singleton.1 hg]; exact F.eb)]
  exact only_congr fun a => by simp [Site.declares, ELt]

theorem okEL {n : String} {tys : List Ty} :
    Site.ltsOk { name := n, generics := [f.egenerics, f.lg], tys := tys } ↔ Only (fun a => ELt f a ∨ ALt f a) tys := by
  rw [site_plain rfl rfl (by
    intro g hg
    rcases List.mem_cons.1 hg with rfl | hg
    · exact F.eb
    · rw [List.mem_singleton.1 hg]; exact lg_unbound F)]
  exact only_congr fun a => by simp [Site.declares, ELt, lg_lts]

theorem okC {n : String} {tys : List Ty} :
    Site.ltsOk { name := n, generics := [f.cgenerics], tys := tys } ↔ Only (fun _ => False) tys := by
  rw [site_plain rfl rfl (by intro g hg; rw [List.mem_singleton.1 hg]; exact F.cb)]
  exact only_congr fun a => by simp [Site.declares, F.cl]

theorem okCL {n : String} {tys : List Ty} :
    Site.ltsOk { name := n, generics := [f.cgenerics, f.lg], tys := tys } ↔ Only (ALt f) tys := by
  rw [site_plain rfl rfl (by
    intro g hg
    rcases List.mem_cons.1 hg with rfl | hg
    · exact F.cb
    · rw [List.mem_singleton.1 hg]; exact lg_unbound F)]
  exact only_congr fun a => by simp [Site.declares, F.cl, lg_lts]

theorem okEF {n : String} {under tys : List Ty} :
    Site.ltsOk { name := n, generics := [f.egenerics], hrtb := f.alifetimes, under := under, tys := tys } ↔
      Only (ELt f) tys ∧ Only (fun a => ELt f a ∨ ALt f a) under := by
  rw [site_for (A := ALt f) (fun a => Iff.rfl) F.ab (by intro g hg; rw [List.mem_singleton.1 hg]; exact F.eb)]
  exact and_congr (only_congr fun a => by simp [Site.declares, ELt])
    (only_congr fun a => by simp [Site.declares, ELt, or_comm])

theorem okCF {n : String} {under tys : List Ty} :
    Site.ltsOk { name := n, generics := [f.cgenerics], hrtb := f.alifetimes, under := under, tys := tys } ↔
      Only (fun _ => False) tys ∧ Only (ALt f) under := by
  rw [site_for (A := ALt f) (fun a => Iff.rfl) F.ab (by intro g hg; rw [List.mem_singleton.1 hg]; exact F.cb)]
  exact and_congr (only_congr fun a => by simp [Site.declares, F.cl])
    (only_congr fun a => by simp [Site.declares, F.cl])

theorem okG {n : String} {tys : List Ty} :
    Site.ltsOk { name := n, generics := [withGuardLt f.egenerics], tys := tys } ↔
      Only (fun a => ELt f a ∨ a = "__mockall_lt") tys := by
  rw [site_plain rfl rfl (by intro g hg; rw [List.mem_singleton.1 hg]; exact withGuardLt_unbound F.eb)]
  exact only_congr fun a => by simp [Site.declares, ELt, withGuardLt_lts]

theorem okGF {n : String} {under tys : List Ty} :
    Site.ltsOk { name := n, generics := [withGuardLt f.egenerics], hrtb := f.alifetimes, under := under, tys := tys } ↔
      Only (fun a => ELt f a ∨ a = "__mockall_lt") tys ∧
      Only (fun a => (ELt f a ∨ a = "__mockall_lt") ∨ ALt f a) under := by
  rw [site_for (A := ALt f) (fun a => Iff.rfl) F.ab
    (by intro g hg; rw [List.mem_singleton.1 hg]; exact withGuardLt_unbound F.eb)]
  exact and_congr (only_congr fun a => by simp [Site.declares, ELt, withGuardLt_lts])
    (only_congr fun a => by simp [Site.declares, ELt, withGuardLt_lts, or_comm])

omit F in
theorem okX {n : String} {tys : List Ty} : Site.ltsOk { name := n, tys := tys } ↔ Only (fun _ => False) tys := by
  rw [site_plain rfl rfl (by intro g hg; cases hg)]
  exact only_congr fun a => by simp [Site.declares]

theorem okT {n : String} {tys : List Ty} :
    Site.ltsOk { name := n, generics := [f.typeGenerics], tys := tys } ↔ Only (fun _ => False) tys := by
  rw [site_plain rfl rfl (by intro g hg; rw [List.mem_singleton.1 hg]; exact F.tb)]
  exact only_congr fun a => by simp [Site.declares, F.tl]

theorem okTG {n : String} {tys : List Ty} :
    Site.ltsOk { name := n, generics := [f.typeGenerics, withGuardLt f.callGenerics], tys := tys } ↔
      Only (fun a => a = "__mockall_lt") tys := by
  rw [site_plain rfl rfl (by
    intro g hg
    rcases List.mem_cons.1 hg with rfl | hg
    · exact F.tb
    · rw [List.mem_singleton.1 hg]; exact withGuardLt_unbound F.mb)]
  exact only_congr fun a => by simp [Site.declares, F.tl, withGuardLt_lts, F.ml]

omit F in
theorem okS {n : String} {tys : List Ty} :
    Site.ltsOk { name := n, outer := [sg], tys := tys } ↔ Only (· ∈ lifetimes sg) tys := by
  rw [site_plain rfl rfl (by intro g hg; cases hg)]
  exact only_congr fun a => by simp [Site.declares]

theorem okSM {n : String} {tys : List Ty} :
    Site.ltsOk { name := n, outer := [sg], generics := [f.callGenerics], tys := tys } ↔ Only (· ∈ lifetimes sg) tys := by
  rw [site_plain rfl rfl (by intro g hg; rw [List.mem_singleton.1 hg]; exact F.mb)]
  exact only_congr fun a => by simp [Site.declares, F.ml]

omit F in
theorem okSS {n : String} {tys : List Ty} :
    Site.ltsOk { name := n, outer := [sg, f.sig.generics], tys := tys } ↔
      Only (fun a => a ∈ lifetimes sg ∨ a ∈ lifetimes f.sig.generics) tys := by
  rw [site_plain rfl rfl (by intro g hg; cases hg)]
  exact only_congr fun a => by simp [Site.declares]

theorem only_refPred {P : Lt → Prop} : Only P f.refPredTys ↔ Only P f.predTys := by
  simp only [Only, MockFn.refPredTys, MockFn.predTys, List.mem_map]
  refine forall_congr' fun a => forall_congr' fun _ => ?_
  constructor
  · rintro h ⟨_, ⟨c, hc, rfl⟩, k⟩
    exact h ⟨_, ⟨c, hc, rfl⟩, by rw [F.rp c hc]; exact k⟩
  · rintro h ⟨_, ⟨c, hc, rfl⟩, k⟩
    exact h ⟨_, ⟨c, hc, rfl⟩, by rw [← F.rp c hc]; exact k⟩

/-- What is needed of the lifetimes. -/
structure ScopeConds (sg : Generics) (f : MockFn) : Prop where
  pred : Only (ALt f) f.predTys
  arg : Only (fun a => ELt f a ∨ ALt f a) f.argTys
  out : Only (fun a => ELt f a ∨ ALt f a) [f.output]
  own : Only (ELt f) [f.ownedOutput]
  amut : f.kind = .refMut ∨ f.isStored = true → Only (ELt f) f.argTys
  sout : f.isStored = true → Only (ELt f) [f.output]
  stat : f.isStatic = true → ∀ a, NamedLt a → ¬ ELt f a
  exp : f.isMethodGeneric = true → (f.returnRef || f.returnRefmut) = true → Only (· ∈ lifetimes sg) [f.ownedOutput]

omit F in
theorem kind_flags : (f.returnRef || f.returnRefmut) = true ↔ f.kind ≠ .static := by
  simp only [MockFn.kind]
  cases f.returnRef <;> cases f.returnRefmut <;> simp

omit F in
theorem only_ref1 {P : Lt → Prop} {m : Bool} {t : Ty} : Only P [.ref none m t] ↔ Only P [t] :=
  only_refs (l := [t])

omit F in
theorem only_le {P Q : Lt → Prop} {l : List Ty} (k : ∀ a, P a → Q a) : Only P l → Only Q l := fun h => h.mono k

theorem only_own {P : Lt → Prop} (h : Only P [f.output]) : Only P [f.ownedOutput] := by
  rintro a hn ⟨t, ht, k⟩
  rw [List.mem_singleton.1 ht] at k
  exact h a hn ⟨_, List.mem_singleton.2 rfl, F.oo a k⟩

theorem only_static {P : Lt → Prop} (h : f.kind = .static) : Only P [f.output] ↔ Only P [f.ownedOutput] := by
  simp only [Only, List.mem_singleton, exists_eq_left, F.st h]

theorem rfunc_iff : (∀ s ∈ f.rfuncSites, Site.ltsOk s) ↔ match f.kind with
    | .ref => Only (ELt f) [f.ownedOutput]
    | .refMut => Only (ELt f) [f.ownedOutput] ∧ Only (ELt f) f.argTys ∧
      Only (fun a => ELt f a ∨ ALt f a) [f.output]
    | .static => Only (fun a => ELt f a ∨ ALt f a) f.argTys ∧ Only (fun a => ELt f a ∨ ALt f a) [f.output] := by
  have l1 : ∀ {l}, Only (ELt f) l → Only (fun a => ELt f a ∨ ALt f a) l := fun h => h.mono fun _ => .inl
  have hn : ∀ {P : Lt → Prop}, Only P f.fnParamTys := only_names
  simp only [MockFn.rfuncSites]
  cases f.kind
  · simp only [List.forall_mem_cons, no_sites, okEF F, okEL F, only_append, hn, and_true, true_and, and_self]
  · simp only [List.forall_mem_cons, no_sites, okE F, okEL F, only_cons (l := f.fnParamTys), hn, and_true,
      only_ref1]
    exact ⟨fun h => h.1, fun h => ⟨h, l1 h⟩⟩
  · simp only [List.forall_mem_cons, no_sites, okE F, okEL F, only_append, only_cons (l := f.fnParamTys), hn,
      and_true]
    exact ⟨fun h => ⟨h.1.2, h.1.1, h.2.2⟩, fun h => ⟨⟨h.2.1, h.1⟩, l1 h.2.1, h.2.2⟩⟩

theorem matcher_iff : (∀ s ∈ f.matcherSites, Site.ltsOk s) ↔ Only (ALt f) f.predTys := by
  have hn : ∀ {P : Lt → Prop}, Only P f.fnParamTys := only_names
  simp only [MockFn.matcherSites, List.forall_mem_cons, no_sites, okCF F, okCL F, only_append, hn,
    only_refPred F, only_refs, and_true, true_and, and_self]

theorem common_iff : (∀ s ∈ f.commonSites, Site.ltsOk s) ↔ Only (ALt f) f.predTys := by
  have hn : ∀ {P : Lt → Prop}, Only P [] := .nil
  have hc : Only (fun _ => False) [tgTy "Matcher" f.cgenerics] := by
    rw [only_tg, F.cl]; simp
  simp only [MockFn.commonSites, List.forall_mem_cons, no_sites, okCF F, okCL F, okC F, hn, hc,
    only_refPred F, only_refs, and_true, true_and, and_self]

omit F in
theorem only_etg {n : Ident} : Only (ELt f) [tgTy n f.egenerics] := by
  rw [only_tg]; exact fun _ _ h => h

theorem expectation_iff (hp : Only (ALt f) f.predTys) : (∀ s ∈ f.expectationSites, Site.ltsOk s) ↔
    Only (fun a => ELt f a ∨ ALt f a) f.argTys ∧ Only (fun a => ELt f a ∨ ALt f a) [f.callOutput] ∧
    Only (ELt f) [f.ownedOutput] ∧ (f.kind = .refMut → Only (ELt f) f.argTys) := by
  have hn : ∀ {P : Lt → Prop}, Only P [] := .nil
  have hp' : Only (fun a => ELt f a ∨ ALt f a) f.predTys := hp.mono fun _ => .inr
  have l1 : ∀ {l}, Only (ELt f) l → Only (fun a => ELt f a ∨ ALt f a) l := fun h => h.mono fun _ => .inl
  have hc : Only (ELt f) [tgTy "Common" f.cgenerics] := by
    rw [only_tg, F.cl]; simp
  simp only [MockFn.expectationSites, List.forall_mem_append, List.forall_mem_cons, no_sites, okEF F,
    okEL F, okE F, hn, hp', only_cons (l := [tgTy "Rfunc" f.egenerics]), hc, only_etg, only_append, only_refs, and_true,
    true_and, MockFn.returnSites]
  cases hk : f.kind
  · simp only [List.forall_mem_cons, no_sites, okEF F, okE F, only_append, hn, and_true, true_and, reduceCtorEq,
      false_implies, only_static F hk, MockFn.callOutput, hk]
    exact ⟨fun h => ⟨h.1.1, h.1.2, h.2.1⟩, fun h => ⟨⟨h.1, h.2.1⟩, h.2.2, h.1, h.2.1⟩⟩
  · simp only [List.forall_mem_cons, no_sites, okE F, and_true, reduceCtorEq, false_implies, and_assoc]
  · simp only [List.forall_mem_cons, no_sites, okE F, only_append, and_true, true_implies]
    exact ⟨fun h => ⟨h.1.1, h.1.2, h.2.1, h.2.2.1⟩, fun h => ⟨⟨h.1, h.2.1⟩, h.2.2.1, h.2.2.2, h.2.2.1⟩⟩

theorem expectations_iff : (∀ s ∈ f.expectationsSites, Site.ltsOk s) ↔
    Only (fun a => ELt f a ∨ ALt f a) f.argTys ∧ Only (fun a => ELt f a ∨ ALt f a) [f.output] := by
  simp only [MockFn.expectationsSites, List.forall_mem_cons, no_sites, okE F, okEL F, only_etg, only_append,
    and_true, true_and]

theorem store_iff (ho : Only (ELt f) [f.ownedOutput]) : (∀ s ∈ f.storeSites, Site.ltsOk s) ↔
    (f.isStored = true → Only (ELt f) f.argTys ∧ Only (ELt f) [f.output]) := by
  have hn : ∀ {P : Lt → Prop}, Only P f.fnParamTys := only_names
  have hs : Only (ELt f) f.syncTys := by
    unfold MockFn.syncTys
    split
    · exact ho
    · exact .nil
  have he : ∀ n l, Only (ELt f) (tgTy n f.egenerics :: l) ↔ Only (ELt f) l := fun n l => by
    rw [only_cons]; exact and_iff_right (only_etg)
  simp only [MockFn.storeSites]
  split
  · rename_i h
    simp only [h, true_implies, List.forall_mem_cons, no_sites, okE F, he, hs, hn, only_append, and_true,
      true_and, List.cons_append]
    rw [only_cons (l := tgTy "Expectations" f.egenerics :: f.fnParamTys), he]
    exact and_congr_right fun _ => and_iff_left hn
  · rename_i h
    simp [h]

theorem guard_iff (hp : Only (ALt f) f.predTys) (ha : Only (fun a => ELt f a ∨ ALt f a) f.argTys)
    (hout : Only (fun a => ELt f a ∨ ALt f a) [f.output]) (ho : Only (ELt f) [f.ownedOutput]) :
    (∀ s ∈ f.guardSites, Site.ltsOk s) ↔
      (f.isStatic = true → f.isExpectationGeneric = false → ∀ a, NamedLt a → ¬ ELt f a) := by
  have l1 : ∀ {l}, Only (fun a => ELt f a ∨ ALt f a) l →
      Only (fun a => (ELt f a ∨ a = "__mockall_lt") ∨ ALt f a) l :=
    fun h => h.mono fun _ h => h.elim (fun x => .inl (.inl x)) .inr
  have l2 : ∀ {l}, Only (ELt f) l → Only (fun a => ELt f a ∨ a = "__mockall_lt") l := fun h => h.mono fun _ => .inl
  have hp' : Only (fun a => ELt f a ∨ ALt f a) f.predTys := hp.mono fun _ => .inr
  have hn : ∀ {P : Lt → Prop}, Only P [] := .nil
  have hr : Only (fun a => ELt f a ∨ a = "__mockall_lt") [.ref (some "__mockall_lt") false (.tuple f.fnParamTys)] := by
    rintro a hnm ⟨t, ht, k⟩
    rw [List.mem_singleton.1 ht, freeLts, freeLts] at k
    rcases List.mem_append.1 k with k | k
    · exact .inr (by simpa using k)
    · have : ∀ l : List Ident, freeLtsTys (l.map .name) = [] := by
        intro l
        induction l with
        | nil => rfl
        | cons n l ih => rw [List.map_cons, freeLtsTys, ih]; rfl
      rw [MockFn.fnParamTys, this] at k
      cases k
  simp only [MockFn.guardSites]
  split
  · rename_i h
    have hos : Only (ELt f) [f.output] := (only_static F (F.nr h)).2 ho
    simp only [List.forall_mem_append, List.forall_mem_cons, no_sites, okG F, okGF F, only_append, only_refs,
      l1 hp', l1 ha, l1 hout, l2 hos, hn, only_cons (l := [.ref _ _ _]), hr, l2 (only_etg), and_true, h, true_implies,
      MockFn.getSites]
    split
    · rename_i hg
      simp [hg, okX, hn]
    · rename_i hg
      simp only [hg, true_implies, List.forall_mem_cons, no_sites, okX, only_tg, and_true]
      rfl
  · rename_i h
    simp [h]

theorem context_iff : (∀ s ∈ f.contextSites sg, Site.ltsOk s) ↔
    (f.isStatic = true → ∀ a, NamedLt a → ¬ ELt f a) := by
  simp only [MockFn.contextSites]
  split
  · rename_i h
    simp only [List.forall_mem_cons, no_sites, okT F, only_names, okTG F, only_tg, withGuardLt_lts, and_true,
      true_and, h, true_implies]
    constructor
    · intro k a hn he
      exact F.gl (k a hn (.inl he) ▸ he)
    · rintro k a hn (he | he)
      · exact absurd he (k a hn)
      · exact he
  · rename_i h
    simp [h]

theorem outside_iff : (∀ s ∈ f.outsideSites sg, Site.ltsOk s) ↔
    (f.isMethodGeneric = true → (f.returnRef || f.returnRefmut) = true → Only (· ∈ lifetimes sg) [f.ownedOutput]) := by
  have hcall : Only (fun a => a ∈ lifetimes sg ∨ a ∈ lifetimes f.sig.generics)
      [tgTy "call" (if (f.isMethodGeneric || f.isStatic) = true then f.egenerics else f.callGenerics)] := by
    rw [only_tg]
    intro a _ h
    split at h
    · exact F.er a h
    · rw [F.ml] at h; cases h
  have hst : ∀ n, Only (· ∈ lifetimes sg) [tgTy n (staticize f.egenerics)] := by
    intro n
    rw [only_tg]
    exact fun a hn h => absurd hn (staticize_lts _ a h)
  simp only [MockFn.outsideSites, List.forall_mem_cons, okSS, hcall, true_and]
  split
  · rename_i h
    have : (f.returnRef || f.returnRefmut) = false := by
      rw [← Bool.not_eq_true, kind_flags, F.nr h]; simp
    simp only [this, Bool.false_eq_true, false_implies, implies_true, List.forall_mem_cons, okS,
      and_true, only_tg, F.tl, List.not_mem_nil]
  · simp only [List.forall_mem_cons, no_sites, okSM F, okS, and_true]
    by_cases hm : f.isMethodGeneric = true
    · simp only [hm, if_true, true_implies, Only.nil, and_true]
      rw [only_cons]
      simp only [hst, true_and, MockFn.syncTys]
      by_cases hr : (f.returnRef || f.returnRefmut) = true
      · simp only [hr, if_true, true_implies]
      · simp only [hr, Bool.false_eq_true, if_false, false_implies, iff_true]
        exact .nil
    · simp only [hm, Bool.false_eq_true, if_false, hst, false_implies, and_self]

/-- The lifetimes are declared iff the sets fit. -/
theorem scope_iff : LifetimesDeclared sg f ↔ ScopeConds sg f := by
  have hco : Only (fun a => ELt f a ∨ ALt f a) [f.output] → Only (ELt f) [f.ownedOutput] →
      Only (fun a => ELt f a ∨ ALt f a) [f.callOutput] := by
    intro h k
    unfold MockFn.callOutput
    split
    · exact only_ref1.2 (k.mono fun _ => .inl)
    · exact h
  have hall : LifetimesDeclared sg f ↔ ((((((((∀ s ∈ f.rfuncSites, Site.ltsOk s) ∧ (∀ s ∈ f.matcherSites, Site.ltsOk s)) ∧
      (∀ s ∈ f.commonSites, Site.ltsOk s)) ∧ (∀ s ∈ f.expectationSites, Site.ltsOk s)) ∧
      (∀ s ∈ f.expectationsSites, Site.ltsOk s)) ∧ (∀ s ∈ f.storeSites, Site.ltsOk s)) ∧
      (∀ s ∈ f.guardSites, Site.ltsOk s)) ∧ (∀ s ∈ f.contextSites sg, Site.ltsOk s)) ∧
      (∀ s ∈ f.outsideSites sg, Site.ltsOk s) := by
    simp only [LifetimesDeclared, MockFn.sites, List.forall_mem_append]
  rw [hall]
  constructor
  · rintro ⟨⟨⟨⟨⟨⟨⟨⟨h1, h2⟩, h3⟩, h4⟩, h5⟩, h6⟩, h7⟩, h8⟩, h9⟩
    have hp := (matcher_iff F).1 h2
    obtain ⟨e1, e2, e3, e4⟩ := (expectation_iff F hp).1 h4
    obtain ⟨x1, x2⟩ := (expectations_iff F).1 h5
    have hs := (store_iff F e3).1 h6
    exact ⟨hp, x1, x2, e3, fun h => h.elim e4 fun h => (hs h).1, fun h => (hs h).2, (context_iff F).1 h8,
      (outside_iff F).1 h9⟩
  · rintro ⟨hp, ha, ho, hw, hm, hs, hst, he⟩
    refine ⟨⟨⟨⟨⟨⟨⟨⟨?_, (matcher_iff F).2 hp⟩, (common_iff F).2 hp⟩,
      (expectation_iff F hp).2 ⟨ha, hco ho hw, hw, fun h => hm (.inl h)⟩⟩, (expectations_iff F).2 ⟨ha, ho⟩⟩,
      (store_iff F hw).2 fun h => ⟨hm (.inr h), hs h⟩⟩, (guard_iff F hp ha ho hw).2 fun h _ => hst h⟩,
      (context_iff F).2 hst⟩, (outside_iff F).2 he⟩
    rw [rfunc_iff F]
    split
    · exact hw
    · rename_i hk; exact ⟨hw, hm (.inl hk), ho⟩
    · exact ⟨ha, ho⟩
end

end Mockall.Props
