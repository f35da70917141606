import Verif.Spec.Used
import Verif.Props.DeriveMentions
import Verif.Props.DeriveNames
import Verif.Props.DeriveAuto

/-! # C95: the types of a mock use all their parameters -/

namespace Mockall.Props

open Derive Spec

theorem tgTy_uses {m n : Ident} {g : Generics} (h : HasTyParam g n) : UsesParam n (tgTy m g) := by
  obtain ⟨p, hp, rfl⟩ := h
  rw [tgTy, if_neg (List.ne_nil_of_mem hp)]
  exact .arg (List.mem_map.2 ⟨_, hp, rfl⟩) .self

theorem params_names {f : MockFn} {n : Ident} (e : f.fnParams = typeParams f.egenerics) (h : HasTyParam f.egenerics n) :
    .name n ∈ f.fnParamTys :=
  List.mem_map.2 ⟨n, by rw [e, typeParams_has]; exact h, rfl⟩

theorem cgenerics_sub {b : Builder} {f : MockFn} (s : Steps b f) (hs : Wf (b.structGenerics.getD {}))
    (hw : Wf b.sig.generics) {n : Ident} (h : HasTyParam f.cgenerics n) : HasTyParam f.egenerics n := by
  obtain ⟨w1, -⟩ := split_typeParams hs s.sgen
  obtain ⟨w2, -⟩ := split_typeParams (steps_genericsWf s hw).1 s.mgen
  rw [← typeParams_has, typeParams_iff] at h ⊢
  rw [s.egen, merge_mem_keys (merge_weak (ltsToGenerics_weak _)) (ltsToGenerics_weak _),
    merge_mem_keys (by rw [s.cgen]; exact merge_weak w2) (ltsToGenerics_weak _)]
  exact .inl (.inl h)

/-- C95 for type parameters: each type that is declared for a function uses all of them. -/
theorem C95_types (b : Builder) (f : MockFn) (hs : Wf (b.structGenerics.getD {})) (hw : Wf b.sig.generics)
    (h : build b = .ok f) : ∀ s ∈ f.typeSites (b.structGenerics.getD {}), UsesTypes s := by
  obtain ⟨s⟩ := build_steps h
  have hE : ∀ n, HasTyParam f.egenerics n → .name n ∈ f.fnParamTys := fun n k => params_names s.params k
  have hC : ∀ n, HasTyParam f.cgenerics n → HasTyParam f.egenerics n := fun n k => cgenerics_sub s hs hw k
  intro x hx g hg n hn
  simp only [MockFn.typeSites, List.mem_append, List.mem_cons, List.not_mem_nil, or_false] at hx
  rcases hx with ((rfl | rfl | rfl | rfl | rfl) | hx) | hx
  · cases List.mem_singleton.1 hg
    exact ⟨_, List.mem_append_left _ (hE n (hC n hn)), .self⟩
  · cases List.mem_singleton.1 hg
    exact ⟨_, List.mem_append_left _ List.mem_cons_self, tgTy_uses hn⟩
  · unfold MockFn.rfuncType at hg ⊢
    cases hk : f.kind <;> rw [hk] at hg <;> cases List.mem_singleton.1 hg
    · exact ⟨_, List.mem_append_left _ (hE n hn), .self⟩
    · exact ⟨_, List.mem_append_left _ (List.mem_cons_of_mem _ (hE n hn)), .self⟩
    · exact ⟨_, List.mem_append_left _ (List.mem_append_right _ (List.mem_cons_of_mem _ (hE n hn))), .self⟩
  · cases List.mem_singleton.1 hg
    exact ⟨_, List.mem_append_left _ (List.mem_cons_of_mem _ List.mem_cons_self), tgTy_uses hn⟩
  · cases List.mem_singleton.1 hg
    exact ⟨_, List.mem_append_left _ List.mem_cons_self, tgTy_uses hn⟩
  · split at hx
    · cases List.mem_singleton.1 hx
      cases hg
    · cases hx
  · split at hx
    · rcases List.mem_cons.1 hx with rfl | hx'
      · cases List.mem_singleton.1 hg
        have hn' : HasTyParam f.egenerics n := by
          obtain ⟨p, hp, e⟩ := hn
          rcases List.mem_append.1 hp with hp' | hp'
          · exact ⟨p, hp', e⟩
          · cases List.mem_singleton.1 hp'
        simp only [MockFn.guardType, List.append_nil]
        split
        · exact ⟨_, List.mem_cons_of_mem _ List.mem_cons_self, .tuple (hE n hn') .self⟩
        · exact ⟨_, List.mem_cons_self, .arg (List.mem_cons_of_mem _ List.mem_cons_self) (tgTy_uses hn')⟩
      · cases List.mem_singleton.1 hx'
        cases List.mem_singleton.1 hg
        refine ⟨.name n, List.mem_append_left _ (List.mem_map.2 ⟨n, ?_, rfl⟩), .self⟩
        rw [typeParams_has]
        exact ((split_typeParams hs s.sgen).2 n).1 hn
    · cases hx

/-- The lifetimes of a function, with or without `#[concretize]`. -/
theorem steps_lts {b : Builder} {f : MockFn} (s : Steps b f) (hs : Wf (b.structGenerics.getD {})) (hw : Wf b.sig.generics)
    (hp : ∀ a, IsLtParam (b.structGenerics.getD {}) b.sig.generics a → PlainLtRet a b.sig.output) :
    lifetimes f.cgenerics = [] ∧ lifetimes f.typeGenerics = [] ∧
    (∀ a ∈ lifetimes f.egenerics, IsLtParam (b.structGenerics.getD {}) b.sig.generics a ∧ a ∈ freeLts f.ownedOutput ∧
      a ∉ f.alifetimes.map LtParam.lt) ∧
    ∀ a, a ∈ lifetimes f.egenerics ↔ (a ∈ lifetimes (b.structGenerics.getD {}) ∨
      (b.concretize = false ∧ a ∈ lifetimes b.sig.generics)) ∧ BehindLt b.sig.output a := by
  have hd := (steps_genericsWf s hw).1
  have hl' : ∀ a, a ∈ lifetimes s.dg' ↔ b.concretize = false ∧ a ∈ lifetimes b.sig.generics := by
    intro a
    cases hc : b.concretize with
    | false => simp [(steps_prepared s hc hw).1.lts a]
    | true => rw [(steps_concretized s hc).2.1]; simp [lifetimes, ltParams]
  have hl : ∀ a ∈ lifetimes s.dg', a ∈ lifetimes b.sig.generics := fun a h => ((hl' a).1 h).2
  obtain ⟨-, o2, ho⟩ := build_output s.out
  have hR : ∀ R, retLts (.ty f.ownedOutput) = .ok R → ∀ a, IsLtParam (b.structGenerics.getD {}) b.sig.generics a →
      (a ∈ R ↔ a ∈ freeLts f.ownedOutput) := by
    intro R h a ha
    rw [retLts, ho] at h
    rw [o2]
    exact find_plain h (plainRet_behind (hp a ha))
  have f1 := split_facts (P := fun a => ∃ A, argLts s.inputs = .ok A ∧ a ∈ A) hs s.sgen
    (fun A h a _ => ⟨fun k => ⟨A, h, k⟩, fun ⟨B, k, m⟩ => by rw [h] at k; cases k; exact m⟩)
    (fun R h a ha => hR R h a (.inl ha))
  have f2 := split_facts (P := fun a => ∃ A, argLts s.inputs = .ok A ∧ a ∈ A) hd s.mgen
    (fun A h a _ => ⟨fun k => ⟨A, h, k⟩, fun ⟨B, k, m⟩ => by rw [h] at k; cases k; exact m⟩)
    (fun R h a ha => hR R h a (.inr (hl a ha)))
  obtain ⟨t1, -⟩ := split_kept hs s.sgen
  obtain ⟨t2, -⟩ := split_kept hd s.mgen
  obtain ⟨w1, -⟩ := split_typeParams hs s.sgen
  obtain ⟨w2, -⟩ := split_typeParams hd s.mgen
  have none : ∀ g : Generics, (∀ a, (ParamKind.lt, a) ∉ g.params.map GParam.key) → lifetimes g = [] :=
    fun g h => List.eq_nil_iff_forall_not_mem.2 fun a k => h a ((lifetimes_key g a).1 k)
  have hE : ∀ a, a ∈ lifetimes f.egenerics ↔
      (a ∈ lifetimes (b.structGenerics.getD {}) ∨ a ∈ lifetimes s.dg') ∧ a ∈ freeLts f.ownedOutput := by
    intro a
    rw [lifetimes_key, s.egen, merge_mem_keys (merge_weak (ltsToGenerics_weak _)) (ltsToGenerics_weak _),
      merge_mem_keys (by rw [s.cgen]; exact merge_weak w2) (ltsToGenerics_weak _), s.cgen, merge_mem_keys w1 w2,
      ← lifetimes_key (ltsToGenerics _), ← lifetimes_key (ltsToGenerics _), ltsToGenerics_lifetimes,
      ltsToGenerics_lifetimes, (f1 a).2, (f2 a).2]
    constructor
    · rintro (((k | k) | k) | k)
      · exact absurd k (t1 a)
      · exact absurd k (t2 a)
      · exact ⟨.inl k.1, k.2⟩
      · exact ⟨.inr k.1, k.2⟩
    · rintro ⟨k | k, m⟩
      · exact .inl (.inr ⟨k, m⟩)
      · exact .inr ⟨k, m⟩
  refine ⟨none _ fun a k => ?_, none _ t1, fun a ha => ?_, fun a => by rw [hE, hl', BehindLt, o2]⟩
  · rw [s.cgen, merge_mem_keys w1 w2] at k
    exact k.elim (t1 a) (t2 a)
  · have key : IsLtParam (b.structGenerics.getD {}) b.sig.generics a ∧ a ∈ freeLts f.ownedOutput := by
      obtain ⟨k, m⟩ := (hE a).1 ha
      exact ⟨k.imp id (hl a), m⟩
    refine ⟨key.1, key.2, fun k => ?_⟩
    rw [s.alts] at k
    obtain ⟨p, hp, rfl⟩ := List.mem_map.1 k
    rw [List.mem_eraseDups, List.mem_append] at hp
    rcases hp with hp | hp
    · exact (((f1 p.lt).1).1 (List.mem_map_of_mem hp)).2.2 key.2
    · exact (((f2 p.lt).1).1 (List.mem_map_of_mem hp)).2.2 key.2

/-- C95 for lifetimes: each type that is declared for a function uses all of them, unless the function is static,
has generics, and returns something with a lifetime that is a parameter.  In this case `ExpectationGuard` is refused.
The hypotheses: Rust does not allow that a `for<..>` in the return type declares a lifetime that is already declared; a
lifetime that is used inside of `Fn(..)` only is in `C45_missed`; and there is no parameter `'__mockall_lt`. -/
theorem C95_lifetimes (b : Builder) (f : MockFn) (hs : Wf (b.structGenerics.getD {})) (hw : Wf b.sig.generics)
    (hp : ∀ a, IsLtParam (b.structGenerics.getD {}) b.sig.generics a → PlainLtRet a b.sig.output)
    (hm : ¬ IsLtParam (b.structGenerics.getD {}) b.sig.generics "__mockall_lt") (h : build b = .ok f) :
    (∀ s ∈ f.typeSites (b.structGenerics.getD {}), s.name ≠ "ExpectationGuard" → UsesLts s) ∧
    ((∀ s ∈ f.typeSites (b.structGenerics.getD {}), UsesLts s) ↔
      ¬ (f.isStatic = true ∧ f.isExpectationGeneric = true ∧ ∃ a, (a ∈ lifetimes (b.structGenerics.getD {}) ∨
        (b.concretize = false ∧ a ∈ lifetimes b.sig.generics)) ∧ BehindLt b.sig.output a)) := by
  obtain ⟨s⟩ := build_steps h
  obtain ⟨hc, ht, he, hx⟩ := steps_lts s hs hw hp
  simp only [← hx]
  have hE : ∀ {n a}, a ∈ lifetimes f.egenerics → a ∈ freeLts (tgTy n f.egenerics) := by
    intro n a k
    rwa [tgTy_free]
  have main : ∀ s ∈ f.typeSites (b.structGenerics.getD {}), s.name ≠ "ExpectationGuard" → UsesLts s := by
    intro x hx hnm g hg a ha
    simp only [MockFn.typeSites, List.mem_append, List.mem_cons, List.not_mem_nil, or_false] at hx
    rcases hx with ((rfl | rfl | rfl | rfl | rfl) | hx) | hx
    · cases List.mem_singleton.1 hg
      rw [hc] at ha; cases ha
    · cases List.mem_singleton.1 hg
      rw [hc] at ha; cases ha
    · unfold MockFn.rfuncType at hg ⊢
      cases hk : f.kind <;> rw [hk] at hg <;> cases List.mem_singleton.1 hg
      · refine .inr ⟨⟨_, List.mem_append_right _ List.mem_cons_self, ?_⟩, (he a ha).2.2⟩
        obtain ⟨o1, o2, -⟩ := build_output s.out
        rw [o1]
        exact behind_free (by rw [← o2]; exact (he a ha).2.1)
      · exact .inl ⟨_, List.mem_cons_self, (he a ha).2.1⟩
      · exact .inl ⟨_, List.mem_append_right _ List.mem_cons_self, (he a ha).2.1⟩
    · cases List.mem_singleton.1 hg
      exact .inl ⟨_, List.mem_cons_of_mem _ List.mem_cons_self, hE ha⟩
    · cases List.mem_singleton.1 hg
      exact .inl ⟨_, List.mem_cons_self, hE ha⟩
    · split at hx
      · cases List.mem_singleton.1 hx
        cases hg
      · cases hx
    · split at hx
      · rcases List.mem_cons.1 hx with rfl | hx'
        · exact absurd rfl hnm
        · cases List.mem_singleton.1 hx'
          cases List.mem_singleton.1 hg
          rw [ht] at ha; cases ha
      · cases hx
  refine ⟨main, ?_⟩
  have gl : ∀ {t : Ty} {l : List Ty}, UsesLt { name := "ExpectationGuard", generics := [withGuardLt f.egenerics],
                                                    tys := MockFn.guardTy t :: l } "__mockall_lt" := fun {t l} =>
    .inl ⟨_, List.mem_cons_self, by simp [MockFn.guardTy, freeLts, freeLtsSegs, freeLtsSeg, freeLtsArgs, freeLtsGArgs,
      freeLtsGArg]⟩
  constructor
  · rintro H ⟨h1, h2, a, ha⟩
    have hg : f.guardType ∈ f.typeSites (b.structGenerics.getD {}) := by
      simp [MockFn.typeSites, h1]
    have := H _ hg _ List.mem_cons_self a ((withGuardLt_lts _ _).2 (.inl ha))
    have hne : a ≠ "__mockall_lt" := fun e => hm (e ▸ (he a ha).1)
    simp only [MockFn.guardType, h2, if_true, UsesLt, List.not_mem_nil, false_and, exists_false, or_false,
      List.mem_cons] at this
    obtain ⟨t, rfl | rfl, k⟩ := this
    · simp [MockFn.guardTy, Ty.name, Seg.of, freeLts, freeLtsSegs, freeLtsSeg, freeLtsArgs, freeLtsGArgs, freeLtsGArg,
        hne] at k
    · have : ∀ l : List Ident, freeLtsTys (l.map Ty.name) = [] := by
        intro l
        induction l with
        | nil => rfl
        | cons x l ih => simp [freeLtsTys, ih, Ty.name, Seg.of, freeLts, freeLtsSegs, freeLtsSeg, freeLtsArgs]
      rw [freeLts, MockFn.fnParamTys, this] at k
      cases k
  · intro H x hx
    by_cases hnm : x.name = "ExpectationGuard"
    · intro g hg a ha
      have : x = f.guardType ∧ f.isStatic = true := by
        simp only [MockFn.typeSites, List.mem_append, List.mem_cons, List.not_mem_nil, or_false] at hx
        rcases hx with ((rfl | rfl | rfl | rfl | rfl) | hx) | hx
        · simp at hnm
        · simp at hnm
        · unfold MockFn.rfuncType at hnm
          cases hk : f.kind <;> rw [hk] at hnm <;> simp at hnm
        · simp at hnm
        · simp at hnm
        · split at hx
          · cases List.mem_singleton.1 hx
            simp at hnm
          · cases hx
        · split at hx
          · rename_i h1
            rcases List.mem_cons.1 hx with rfl | hx'
            · exact ⟨rfl, h1⟩
            · cases List.mem_singleton.1 hx'
              simp at hnm
          · cases hx
      obtain ⟨rfl, h1⟩ := this
      cases List.mem_singleton.1 hg
      rw [withGuardLt_lts] at ha
      unfold MockFn.guardType
      cases h2 : f.isExpectationGeneric with
      | true =>
        rcases ha with ha | rfl
        · exact absurd ⟨h1, h2, a, ha⟩ H
        · exact gl
      | false =>
        rcases ha with ha | rfl
        · refine .inl ⟨_, List.mem_cons_self, ?_⟩
          have := hE (n := "Expectations") ha
          simp [MockFn.guardTy, freeLts, freeLtsSegs, freeLtsSeg, freeLtsArgs, freeLtsGArgs, freeLtsGArg, this]
        · exact gl
    · exact main x hx hnm

/-- C95 for mocks of structs and traits: each struct that is generated has a field that uses the parameter, for each of
its type parameters and lifetimes. -/
theorem C95_struct (mi : MockItemStruct) (items : List Item) (hi : mi.items = .ok items) (hd : StructHead) (n : Ident)
    (fs : List Field) (h : .struct hd n fs ∈ items) (p : GParam) (hp : p ∈ hd.generics.params) :
    ∃ f ∈ fs, f.attrs = [] ∧ FieldUses f p := by
  obtain ⟨ph, hph, hc⟩ := items_cases hi
  have key : hd.generics = mi.generics ∧ ∀ f ∈ ph, f ∈ fs := by
    rcases hc _ h with (k | k | ⟨_, k⟩ | ⟨_, _, _, k⟩ | k) | ⟨s, -, k | k | ⟨_, _, _, k⟩ | k⟩ | ⟨t, -, k⟩
    · cases k
    · cases k; exact ⟨rfl, fun f hf => List.mem_append_right _ hf⟩
    · cases k
    · cases k
    · cases k
    · cases k
    · cases k; exact ⟨rfl, fun f hf => List.mem_append_right _ hf⟩
    · cases k
    · cases k
    · simp [MockTrait.implItems] at k
  rw [key.1] at hp
  have hm : FieldTy.phantom p ∈ ph.map Field.ty := by
    rw [phantoms_of hph]
    exact List.mem_map_of_mem hp
  obtain ⟨f, hf, e⟩ := List.mem_map.1 hm
  refine ⟨f, key.2 f hf, (phantoms_are hph f hf).1, ?_⟩
  cases p with
  | lt p => exact ⟨_, e, by simp [GParam.phantomArg, freeLts]⟩
  | ty p => exact ⟨_, e, .self⟩
  | const => trivial

/-- C95 for the methods of mocks of structs and traits. -/
theorem C95_methods (hash : List Args → Nat) (m : MockableStruct) (mi : MockItemStruct)
    (h : mockItemStruct hash m = .ok mi) (hg : Wf m.generics) (hw : ∀ f ∈ m.methods, Wf f.sig.generics)
    (hw' : ∀ i ∈ m.impls, ∀ f, .fn f ∈ i.items → Wf f.sig.generics) :
    (∀ x ∈ mi.methods, ∀ s ∈ x.fn.typeSites m.generics, UsesTypes s) ∧
    ∀ t ∈ mi.traits, ∀ x ∈ t.methods, ∀ s ∈ x.fn.typeSites m.generics, UsesTypes s := by
  have built : ∀ {t v} {f : ImplFn} {x : Meth}, Wf f.sig.generics → methOf m.generics t v f.attrs f.qual f.sig = .ok x →
      ∀ s ∈ x.fn.typeSites m.generics, UsesTypes s := by
    intro t v f x hf e
    obtain ⟨b, b1, b2, b3⟩ := methOf_steps e
    have := C95_types b x.fn (by rw [b1]; exact hg) (by rw [b2]; exact hf) b3
    rwa [b1] at this
  simp only [mockItemStruct, gen_bind_ok, gen_pure_ok] at h
  obtain ⟨ms, h1, ts, h2, rfl⟩ := h
  refine ⟨fun x hx => ?_, fun t ht x hx => ?_⟩
  · obtain ⟨f, hf, e⟩ := mapM_mem' h1 hx
    exact built (hw f hf) e
  · obtain ⟨i, hi, e⟩ := mapM_mem' h2 ht
    obtain ⟨-, -, k⟩ := mockTrait_methods e
    obtain ⟨f, hf, e'⟩ := k x hx
    exact built (hw' i hi f hf) e'

/-- What `C95_lifetimes` asks of a function of a mock with the generics `g`. -/
def PlainFn (g : Generics) (f : ImplFn) : Prop :=
  Wf f.sig.generics ∧ (∀ a, IsLtParam g f.sig.generics a → PlainLtRet a f.sig.output) ∧
    ¬ IsLtParam g f.sig.generics "__mockall_lt"

/-- C95 for the lifetimes of mocks of structs and traits: the types for methods use all of them, and those for static
functions do so but for `ExpectationGuard`. -/
theorem C95_method_lifetimes (hash : List Args → Nat) (m : MockableStruct) (mi : MockItemStruct)
    (h : mockItemStruct hash m = .ok mi) (hg : Wf m.generics) (hw : ∀ f ∈ m.methods, PlainFn m.generics f)
    (hw' : ∀ i ∈ m.impls, ∀ f, .fn f ∈ i.items → PlainFn m.generics f) :
    ∀ x, (x ∈ mi.methods ∨ ∃ t ∈ mi.traits, x ∈ t.methods) → ∀ s ∈ x.fn.typeSites m.generics,
      (x.fn.isStatic = true → s.name ≠ "ExpectationGuard") → UsesLts s := by
  have built : ∀ {t v} {f : ImplFn} {x : Meth}, PlainFn m.generics f →
      methOf m.generics t v f.attrs f.qual f.sig = .ok x → ∀ s ∈ x.fn.typeSites m.generics,
      (x.fn.isStatic = true → s.name ≠ "ExpectationGuard") → UsesLts s := by
    intro t v f x ⟨w1, w2, w3⟩ e s hs hn
    obtain ⟨b, b1, b2, b3⟩ := methOf_steps e
    have k := C95_lifetimes b x.fn (by rw [b1]; exact hg) (by rw [b2]; exact w1)
      (by rw [b1, b2]; exact w2) (by rw [b1, b2]; exact w3) b3
    rw [b1] at k
    cases hst : x.fn.isStatic with
    | true => exact k.1 s hs (hn hst)
    | false => exact k.2.2 (fun q => by simp [hst] at q) s hs
  simp only [mockItemStruct, gen_bind_ok, gen_pure_ok] at h
  obtain ⟨ms, h1, ts, h2, rfl⟩ := h
  rintro x (hx | ⟨t, ht, hx⟩)
  · obtain ⟨f, hf, e⟩ := mapM_mem' h1 hx
    exact built (hw f hf) e
  · obtain ⟨i, hi, e⟩ := mapM_mem' h2 ht
    obtain ⟨-, -, k⟩ := mockTrait_methods e
    obtain ⟨f, hf, e'⟩ := k x hx
    exact built (hw' i hi f hf) e'

/-- The types are among the pieces of code of C79 and C91, but for `GenericExpectations`, which has no parameters, and
the types of the user in `ExpectationGuard`, which depend on its kind. -/
theorem typeSites_sites {sg : Generics} {f : MockFn} {s : Site} (h : s ∈ f.typeSites sg) :
    s ∈ f.sites sg ∨ s.generics = [] ∨ ∃ d ∈ f.sites sg, d.name = s.name ∧ d.generics = s.generics := by
  simp only [MockFn.typeSites, List.mem_append, List.mem_cons, List.not_mem_nil, or_false] at h
  simp only [MockFn.sites, List.mem_append]
  rcases h with ((rfl | rfl | rfl | rfl | rfl) | h) | h
  · simp [MockFn.matcherSites]
  · simp [MockFn.commonSites]
  · have : f.rfuncType ∈ f.rfuncSites := by
      unfold MockFn.rfuncSites MockFn.rfuncType
      cases f.kind <;> simp
    exact .inl (.inl (.inl (.inl (.inl (.inl (.inl (.inl (.inl this))))))))
  · simp [MockFn.expectationSites]
  · simp [MockFn.expectationsSites]
  · split at h
    · cases List.mem_singleton.1 h
      exact .inr (.inl rfl)
    · cases h
  · split at h
    · rename_i hs
      rcases List.mem_cons.1 h with rfl | h'
      · refine .inr (.inr ⟨{
          name := "ExpectationGuard", generics := [withGuardLt f.egenerics],
          tys := [tgTy "Expectations" f.egenerics, .ref (some "__mockall_lt") false (.tuple f.fnParamTys)] },
          .inl (.inl (.inr ?_)), rfl, rfl⟩)
        simp [MockFn.guardSites, hs]
      · cases List.mem_singleton.1 h'
        refine .inl (.inl (.inr ?_))
        simp [MockFn.contextSites, hs]
    · cases h

end Mockall.Props
