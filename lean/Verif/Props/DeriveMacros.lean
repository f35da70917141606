import Verif.Spec.Macros
import Verif.Props.DeriveMockable
import Verif.Props.DeriveDouble
import Verif.Props.DeriveModule
import Verif.Props.DeriveBuilt

/-! # C66-C71: the macros -/

namespace Mockall.Props

open Derive Spec

/-! ## C67: `#[automock]` and `mock!` -/

theorem keep_twice (a : Attr) :
    (({ asyncTrait := false, mustUse := true } : AttrFormatter).keep a &&
      ({ doc := true, asyncTrait := true, mustUse := false } : AttrFormatter).keep a) =
    (({ asyncTrait := false, mustUse := true } : AttrFormatter).keep a && !decide (a.last = "must_use")) := by
  simp only [AttrFormatter.keep]
  by_cases h : a.last = "must_use"
  · simp [h]
  · by_cases h1 : isConcretize a = true <;> by_cases h2 : a.last = "async_trait" <;> simp [h, h1, h2]

theorem named_last {n : Ident} {a : Attr} (hn : n ≠ "cfg_attr") : Named n a ↔ a.last = n := by
  constructor
  · rintro ⟨i, args⟩; rfl
  · intro h
    cases a with
    | plain i l args => cases h; exact ⟨_, _⟩
    | cfgAttr p as => exact absurd h.symm hn

theorem without_filter {n : Ident} (hn : n ≠ "cfg_attr") {l m : List Attr} (h : Without (Named n) l m) :
    m = l.filter fun a => !decide (a.last = n) := by
  induction h with
  | nil => rfl
  | skip h _ ih =>
    rw [List.filter_cons_of_neg, ih]
    simp [(named_last hn).1 h]
  | keep h _ ih =>
    rw [List.filter_cons_of_pos, ih]
    simpa using fun k => h ((named_last hn).2 k)

theorem substSig_eq {σ : Subst} {trait : Ident} {s s' : Sig} (hv : VisibleAssoc s)
    (h : substSig σ trait s = .ok s') :
    s' = { s with inputs := s.inputs.map (onArg (replace (assocReplace (fun i => σ.lookup i) trait)))
                  output := onRet (replace (assocReplace (fun i => σ.lookup i) trait)) s.output } := by
  obtain ⟨h1, h2, h3, h4⟩ := substSig_ok hv h
  obtain ⟨a, b, c, d⟩ := s'
  obtain ⟨a', b', c', d'⟩ := s
  dsimp only at h1 h2 h3 h4
  subst h1 h2 h4
  congr 1
  clear h hv
  induction h3 with
  | nil => rfl
  | cons h _ ih =>
    rw [List.map_cons, ← ih]
    cases h <;> rfl

theorem written_items {σ : Subst} {trait name : Ident} {g : Generics} :
    ∀ {l l1 : List TraitItem} {l2 : List ImplItem}, (∀ f ∈ traitFns l, VisibleAssoc f.sig) →
    l.mapM (substTraitItem σ trait) = .ok l1 → l1.mapM (mockableTraitItem name g) = .ok l2 →
    (l.map (writeItem (replace (assocReplace (fun i => σ.lookup i) trait)) fun i => σ.lookup i)).mapM
      (mockableImplItem name g) = .ok l2
  | [], l1, l2, hv, h1, h2 => by
    simp only [List.mapM_nil, gen_pure_ok] at h1
    subst h1
    exact h2
  | i :: l, l1, l2, hv, h1, h2 => by
    simp only [List.mapM_cons, gen_bind_ok, gen_pure_ok] at h1
    obtain ⟨i1, hi1, l1', hl1, rfl⟩ := h1
    simp only [List.mapM_cons, gen_bind_ok, gen_pure_ok] at h2
    obtain ⟨i2, hi2, l2', hl2, rfl⟩ := h2
    have ih := written_items (fun f hf => hv f (by
      simp only [traitFns, List.mem_filterMap] at hf ⊢
      obtain ⟨x, hx, e⟩ := hf
      exact ⟨x, List.mem_cons_of_mem _ hx, e⟩)) hl1 hl2
    rw [List.map_cons, List.mapM_cons, ih]
    suffices hs : mockableImplItem name g (writeItem (replace (assocReplace (fun i => σ.lookup i) trait))
        (fun i => σ.lookup i) i) = .ok i2 by rw [hs]; rfl
    cases i with
    | const c =>
      simp only [substTraitItem, gen_pure_ok] at hi1
      subst hi1
      simp only [mockableTraitItem, tic2iic, gen_bind_ok, gen_pure_ok] at hi2
      obtain ⟨d, hd, rfl⟩ := hi2
      split at hd
      · cases hd
      · rename_i v hc
        simp only [gen_pure_ok] at hd
        subst hd
        simp only [writeItem, mockableImplItem, hc]
        rfl
    | fn f =>
      simp only [substTraitItem, gen_bind_ok, gen_pure_ok] at hi1
      obtain ⟨s1, hs1, rfl⟩ := hi1
      simp only [mockableTraitItem, gen_bind_ok, gen_pure_ok] at hi2
      obtain ⟨f2, hf2, rfl⟩ := hi2
      have := mockableTraitMethod_eq name g { f with sig := s1 } .inherited
      rw [hf2, substSig_eq (hv f (by simp [traitFns])) hs1] at this
      simp only [writeItem, mockableImplItem]
      exact congrArg (fun x : Gen ImplFn => x >>= fun f => pure (ImplItem.fn f)) this
    | type t =>
      simp only [substTraitItem] at hi1
      split at hi1
      · rename_i u hu
        simp only [gen_pure_ok] at hi1
        subst hi1
        simp only [mockableTraitItem, tit2iit, gen_bind_ok, gen_pure_ok] at hi2
        obtain ⟨d, rfl, rfl⟩ := hi2
        simp only [writeItem, mockableImplItem, hu]
        rfl
      · cases hi1
    | other s =>
      simp only [substTraitItem, gen_pure_ok] at hi1
      subst hi1
      simp [mockableTraitItem] at hi2

theorem derivesDebug_iff {l : List Attr} : derivesDebug l = true ↔ DerivesDebug l := by
  simp only [derivesDebug, List.any_eq_true, DerivesDebug]
  constructor
  · rintro ⟨a, ha, h⟩
    split at h
    · rename_i last args
      simp only [Bool.and_eq_true, decide_eq_true_eq, List.contains_iff_mem] at h
      obtain ⟨rfl, h⟩ := h
      exact ⟨args, ha, h⟩
    · cases h
  · rintro ⟨args, ha, h⟩
    exact ⟨_, ha, by simpa using h⟩

/-- The attributes of the struct matter for the struct itself only, and if `Debug` is derived. -/
theorem expandStruct_attrs (hash : List Args → Nat) (m : MockableStruct) (l : List Attr)
    (h1 : ({ asyncTrait := false, mustUse := true } : AttrFormatter).format m.attrs =
      ({ asyncTrait := false, mustUse := true } : AttrFormatter).format l)
    (h2 : derivesDebug m.attrs = derivesDebug l) :
    expandStruct hash { m with attrs := l } = expandStruct hash m := by
  simp only [expandStruct, mockItemStruct]
  cases m.methods.mapM fun f => methOf m.generics none f.vis f.attrs f.qual f.sig with
  | error e => rfl
  | ok ms =>
    simp only [bind, Except.bind]
    cases m.impls.mapM (mockTrait hash m.generics m.vis) with
    | error e => rfl
    | ok ts =>
      simp only [pure, Except.pure, MockItemStruct.items, MockItemStruct.substructs, MockItemStruct.debugImpl,
        MockItemStruct.newMethod, h1, h2]

/-- C67: `#[automock]` on a trait generates the very code that `mock!` generates for the mock written out by
hand, with the associated types replaced by those given.  Provided these are not where the macro does not
look (C51). -/
theorem C67_handwritten_partial (hash : List Args → Nat) (σ : Subst) (t : ItemTrait) (items : List Item)
    (attrs : List Attr) (hlts : LtsFirst t.generics.params) (hassoc : ∀ f ∈ traitFns t.items, VisibleAssoc f.sig)
    (hattrs : Without (Named "must_use") t.attrs attrs) (h : automockTrait hash σ t = .ok items) :
    mockBang hash (handwritten (replace (assocReplace (fun i => σ.lookup i) t.ident)) (fun i => σ.lookup i)
      attrs t) = .ok items := by
  simp only [automockTrait, mockableFromTrait, mockableTrait, substTrait, gen_bind_ok, gen_pure_ok] at h
  obtain ⟨ms, ⟨t1, ⟨its1, h1, rfl⟩, im, ⟨its2, h2, rfl⟩, rfl⟩, h⟩ := h
  have hw := written_items hassoc h1 h2
  rw [typeArgs_eq hlts] at h
  simp only [mockBang, mockableFromBang, handwritten, bangItems, List.mapM_cons, List.mapM_nil, bangImpl,
    mockableItemImpl, mockIdentInType, gen_bind_ok, gen_pure_ok]
  refine ⟨_, ⟨_, rfl, _, ⟨_, ⟨_, rfl, _, hw, rfl⟩, _, rfl, rfl⟩, rfl⟩, ?_⟩
  rw [← h]
  refine expandStruct_attrs hash ⟨_, _, _, _, _, _, _⟩ _ ?_ ?_
  · dsimp only
    simp only [AttrFormatter.format, List.filter_append, List.filter_filter]
    rw [without_filter (by decide) hattrs, List.filter_filter]
    congr 2
    funext a
    exact keep_twice a
  · dsimp only
    have : ∀ l : List Attr, derivesDebug (l ++ [.plain [] "derive" ["Debug"]]) = true := fun l =>
      derivesDebug_iff.2 ⟨_, List.mem_append_right _ List.mem_cons_self, List.mem_cons_self⟩
    rw [deriveDebug, this, this]

/-! ## The code for a definition -/

theorem pointwise_imp {α β : Type} {R S : α → β → Prop} {l : List α} {m : List β}
    (h : ∀ a b, R a b → S a b) (k : Pointwise R l m) : Pointwise S l m := by
  induction k with
  | nil => exact .nil
  | cons r _ ih => exact .cons (h _ _ r) ih

/-- The struct and its `impl`. -/
theorem struct_main {hash : List Args → Nat} {m : MockableStruct} {items : List Item}
    (h : expandStruct hash m = .ok items) :
    (∃ a fields, .struct ⟨a, m.vis, m.generics⟩ m.name fields ∈ items) ∧
    ∃ hd fns rest, .impl hd m.name none (fns ++ rest) ∈ items ∧ hd.generics = m.generics ∧
      hd.selfArgs = typeArgs m.generics ∧ hd.consts = m.consts ∧
      Pointwise (fun f g => ∃ x, methOf m.generics none f.vis f.attrs f.qual f.sig = .ok x ∧
        g = x.call ("__mock_" ++ m.name)) m.methods fns := by
  obtain ⟨mi, h1, ⟨L⟩⟩ := expand_steps h
  simp only [mockItemStruct, gen_bind_ok, gen_pure_ok] at h1
  obtain ⟨ms, h1, ts, h2, rfl⟩ := h1
  refine ⟨⟨_, _, L.struct⟩, ?_⟩
  have := L.impl
  simp only [mainFns, List.append_assoc] at this
  refine ⟨_, _, _, this, rfl, rfl, rfl, ?_⟩
  exact pointwise_map_right _ (mapM_pointwise (fun _ _ _ k => k) h1)

/-- The `impl` of a trait. -/
theorem struct_trait {hash : List Args → Nat} {m : MockableStruct} {items : List Item}
    (h : expandStruct hash m = .ok items) {i : ItemImpl} (hi : i ∈ m.impls) :
    ∃ p seg md hd fns, i.trait = some p ∧ selfPathOf i.selfTy = .ok seg ∧
      .impl hd seg.id (some p) fns ∈ items ∧ hd.isUnsafe = i.isUnsafe ∧ hd.generics = i.generics ∧
      hd.selfArgs = seg.args ∧ hd.consts = constsOf i.items ∧ hd.types = typesOf i.items ∧
      Pointwise (fun f g => ∃ t x, methOf m.generics (some t) m.vis f.attrs f.qual f.sig = .ok x ∧
        g = x.call md) (methodsOf i.items) fns := by
  obtain ⟨mi, h1, ⟨L⟩⟩ := expand_steps h
  simp only [mockItemStruct, gen_bind_ok, gen_pure_ok] at h1
  obtain ⟨ms, h1, ts, h2, rfl⟩ := h1
  obtain ⟨t, ht, et⟩ := mapM_mem h2 hi
  have hin := L.traits t ht _ List.mem_cons_self
  unfold mockTrait at et
  split at et
  · simp at et
  · rename_i p hp
    simp only [gen_bind_ok, gen_pure_ok] at et
    obtain ⟨sp, hsp, xs, hxs, rfl⟩ := et
    refine ⟨p, sp, "__mock_" ++ m.name ++ "_" ++ ssNameOf hash p, _, _, hp, hsp, hin, rfl, rfl, rfl, rfl, rfl, ?_⟩
    refine pointwise_imp (fun f g ⟨x, hx, e⟩ => ?_) (pointwise_map_right _ (traitMethods_pointwise hxs))
    exact ⟨_, x, hx, e⟩

theorem struct_implemented {hash : List Args → Nat} {m : MockableStruct} {items : List Item}
    (h : expandStruct hash m = .ok items) : (implemented items).map some = m.impls.map ItemImpl.trait := by
  simp only [expandStruct, gen_bind_ok] at h
  obtain ⟨mi, h1, h⟩ := h
  rw [implemented_items h]
  simp only [mockItemStruct, gen_bind_ok, gen_pure_ok] at h1
  obtain ⟨ms, -, ts, h2, rfl⟩ := h1
  have := mapM_pointwise (R := fun i t => i.trait = some t.path) (fun i _ t k => (mockTrait_ok k).1) h2
  dsimp only
  clear h h2
  generalize m.impls = l at this
  induction this with
  | nil => rfl
  | cons h _ ih => simp only [List.map_cons, h, ih]

/-- The mock of a method. -/
theorem mocksMethod_of {A : Ty → Ty} {R : Rewrite} {f f' : ImplFn} {g : Generics} {t : Option Ident} {v : Vis}
    {x : Meth} {md : Ident} {vis : ImplFn → Vis} (h1 : f'.attrs = f.attrs) (h2 : f'.qual = f.qual)
    (h3 : MockSig A R f.sig f'.sig) (h : methOf g t v f'.attrs f'.qual f'.sig = .ok x)
    (hv : (if t.isSome then .inherited else v) = vis f) : MocksMethod A R vis f (x.call md) := by
  obtain ⟨n1, n2, n3, n4, -⟩ := methOf_sig h
  have hsig := mockSig_build h h3
  refine ⟨hsig.name, ?_, ?_, ?_, ⟨_, rfl, hsig⟩, ?_⟩
  · show (if x.trait.isSome then Vis.inherited else x.fn.callVis) = _
    rw [n2, methOf_vis h, hv]
  · show x.qual = _
    rw [n3, h2]
  · intro c hc
    show c.active (({ mustUse := true } : AttrFormatter).format x.attrs) = _
    rw [n1, h1]
    exact active_plain c _ hc
  · intro hp
    show Without _ _ (({ mustUse := true } : AttrFormatter).format x.attrs)
    rw [n1, h1]
    exact C47_filter_partial { mustUse := true } _ hp

/-! ## C68: constructors -/

theorem hasNew_iff {m : MockableStruct} :
    (m.methods.any (·.sig.ident = "new") || m.impls.any fun i =>
      i.items.any fun | .fn f => f.sig.ident = "new" | _ => false) = true ↔ NamesNew m := by
  simp only [Bool.or_eq_true, List.any_eq_true, decide_eq_true_eq, NamesNew]
  refine or_congr Iff.rfl ?_
  constructor
  · rintro ⟨i, hi, x, hx, h⟩
    split at h
    · exact ⟨i, hi, _, hx, by simpa using h⟩
    · cases h
  · rintro ⟨i, hi, f, hf, h⟩
    exact ⟨i, hi, _, hf, by simpa using h⟩

/-- C68: in every configuration, the mock has a function `new` of its own iff no method that is mocked has this
name, be it one of the struct or one of a trait. -/
theorem C68_new (hash : List Args → Nat) (m : MockableStruct) (items : List Item)
    (h : expandStruct hash m = .ok items) (c : Config) :
    HasFn (c.strip items) m.name none "new" .new ↔ ¬ NamesNew m := by
  obtain ⟨mi, h1, ⟨L⟩⟩ := expand_steps h
  have hh : (mi.hasNew = true ↔ NamesNew m) ∧ mi.name = m.name := by
    simp only [mockItemStruct, gen_bind_ok, gen_pure_ok] at h1
    obtain ⟨ms, -, ts, -, rfl⟩ := h1
    exact ⟨hasNew_iff, rfl⟩
  have body : ∀ f : FnItem, c.body f.body = .new → f.body = .new := by
    rintro ⟨_, _, b⟩ e
    cases b <;> first | rfl | cases e
  constructor
  · intro hf
    obtain ⟨a, fs, hi, -, f, hf, -, -, e⟩ := hasFn_origin hf
    have e := body f e
    rcases L.impls _ _ _ _ hi with ⟨-, -, -, rfl⟩ | ⟨-, s, -, -, rfl⟩ | ⟨u, -, hu⟩
    · intro hn
      simp only [mainFns, List.mem_append, List.mem_map, List.mem_singleton, MockItemStruct.newMethod,
        if_pos (hh.1.2 hn), List.not_mem_nil, or_false] at hf
      rcases hf with ((⟨x, -, rfl⟩ | ⟨x, -, rfl⟩) | ⟨x, -, rfl⟩) | rfl
      · simp only [Meth.call] at e
        split at e <;> cases e
      all_goals cases e
    · rw [List.mem_singleton.1 hf] at e
      cases e
    · simp only [MockTrait.implItems, List.mem_cons, Item.impl.injEq, reduceCtorEq, false_and, and_false,
        List.not_mem_nil, or_false, false_or] at hu
      obtain ⟨-, -, -, rfl⟩ := hu
      simp only [List.mem_append, List.mem_map] at hf
      rcases hf with ⟨x, -, rfl⟩ | ⟨x, -, rfl⟩ <;> cases e
  · intro hn
    refine fn_strip (b := .new) (fa := pubFn) (hh.2 ▸ L.impl) rfl ?_ rfl
    simp only [mainFns, List.mem_append, MockItemStruct.newMethod, if_neg fun k => hn (hh.1.1 k)]
    exact .inr (List.mem_singleton.2 rfl)

theorem phantom_inits : ∀ {i : Nat} {l : List GParam} {ph : List Field}, phantomFields i l = .ok ph →
    phantomInits i l = ph.map fun f => ⟨f.attrs, f.name⟩
  | _, [], ph, h => by
    simp only [phantomFields, gen_pure_ok] at h
    subst h; rfl
  | i, .lt p :: l, ph, h => by
    simp only [phantomFields] at h
    split at h
    · simp only [gen_bind_ok, gen_pure_ok] at h
      obtain ⟨r, hr, rfl⟩ := h
      rw [phantomInits, phantom_inits hr]; rfl
    · cases h
  | i, .ty p :: l, ph, h => by
    simp only [phantomFields, gen_bind_ok, gen_pure_ok] at h
    obtain ⟨r, hr, rfl⟩ := h
    rw [phantomInits, phantom_inits hr]; rfl
  | i, .const _ _ :: l, ph, h => by simp [phantomFields] at h

theorem field_inits (l : List Meth) (md : Ident) :
    defaultInits l = (fieldDefinitions l md).map fun f => ⟨f.attrs, f.name⟩ := by
  simp only [defaultInits, fieldDefinitions, List.map_map]
  rfl

/-- Every struct has its `impl Default`. -/
theorem dflt_items {m : MockItemStruct} {items : List Item} (h : m.items = .ok items) (hd : StructHead) (n : Ident)
    (fs : List Field) (hx : .struct hd n fs ∈ items) :
    ∃ a, .dflt a n (fs.map fun f => ⟨f.attrs, f.name⟩) ∈ items ∧ (a = [] ∨ a = hd.attrs) := by
  simp only [MockItemStruct.items, gen_bind_ok, gen_pure_ok] at h
  obtain ⟨ph, hph, subs, hsubs, rfl⟩ := h
  simp only [List.mem_append, List.mem_cons, List.not_mem_nil, or_false, reduceCtorEq, false_or,
    Item.struct.injEq] at hx
  rcases hx with (((⟨rfl, rfl, rfl⟩ | hx) | hx)) | hx
  · refine ⟨[], ?_, .inl rfl⟩
    simp only [List.mem_append, List.mem_cons, List.not_mem_nil, or_false]
    refine .inl (.inl (.inl (.inr ?_)))
    rw [field_inits _ m.modname, phantom_inits hph]
    simp only [List.map_append, List.map_map]
    rfl
  · unfold MockItemStruct.debugImpl at hx
    split at hx
    · cases List.mem_singleton.1 hx
    · cases hx
  · obtain ⟨x, hx1, hx⟩ := List.mem_flatten.1 hx
    obtain ⟨s, hs, e⟩ := mapM_mem' hsubs hx1
    simp only [SubStruct.items, gen_bind_ok, gen_pure_ok] at e
    obtain ⟨ph', hph', rfl⟩ := e
    simp only [List.mem_cons, List.not_mem_nil, or_false, reduceCtorEq, false_or, Item.struct.injEq] at hx
    obtain ⟨rfl, rfl, rfl⟩ := hx
    refine ⟨_, ?_, .inr rfl⟩
    simp only [List.mem_append]
    refine .inl (.inl (.inr (List.mem_flatten.2 ⟨_, hx1, ?_⟩)))
    rw [field_inits _ s.modname, phantom_inits hph', ← List.map_append]
    exact List.mem_cons_of_mem _ (List.mem_cons_of_mem _ List.mem_cons_self)
  · obtain ⟨u, hu, h⟩ := List.mem_flatMap.1 hx
    simp [MockTrait.implItems] at h

/-- C68: whatever is compiled, every struct that is has an `impl Default`, and it sets the fields that the
struct has, all of them, in order. -/
theorem C68_default (hash : List Args → Nat) (m : MockableStruct) (items : List Item)
    (h : expandStruct hash m = .ok items) (c : Config) (hd : StructHead) (n : Ident) (fs : List Field)
    (hx : .struct hd n fs ∈ c.strip items) :
    ∃ a inits, .dflt a n inits ∈ c.strip items ∧ inits.map WithAttrs.val = fs.map Field.name := by
  simp only [expandStruct, gen_bind_ok] at h
  obtain ⟨mi, -, h⟩ := h
  obtain ⟨x, hx1, e⟩ := List.mem_filterMap.1 hx
  have : ∃ fs', x = .struct hd n fs' ∧ c.active hd.attrs = true ∧ fs = fs'.filter fun f => c.active f.attrs := by
    unfold Config.item at e
    split at e
    all_goals first | (split at e <;> cases e; done) | (cases e; done) | skip
    split at e
    · rename_i ha
      cases e
      exact ⟨_, rfl, ha, rfl⟩
    · cases e
  obtain ⟨fs', rfl, ha, rfl⟩ := this
  obtain ⟨a, k1, k2⟩ := dflt_items h _ _ _ hx1
  have ha' : c.active a = true := by
    rcases k2 with rfl | rfl
    · rfl
    · exact ha
  refine ⟨a, _, List.mem_filterMap.2 ⟨_, k1, by rw [Config.item, if_pos ha']⟩, ?_⟩
  rw [List.filter_map, List.map_map]
  rfl

/-! ## C69: `Debug` -/

theorem debugged_append (l m : List Item) : debugged (l ++ m) = debugged l ++ debugged m :=
  List.filterMap_append ..

/-- C69: the mock implements `Debug`, once, iff its definition derives it. -/
theorem C69_debug (hash : List Args → Nat) (m : MockableStruct) (items : List Item)
    (h : expandStruct hash m = .ok items) :
    (DerivesDebug m.attrs → debugged items = [m.name]) ∧ (¬ DerivesDebug m.attrs → debugged items = []) := by
  have key : debugged items = if derivesDebug m.attrs then [m.name] else [] := by
    simp only [expandStruct, gen_bind_ok] at h
    obtain ⟨mi, h1, h⟩ := h
    simp only [mockItemStruct, gen_bind_ok, gen_pure_ok] at h1
    obtain ⟨ms, -, ts, -, rfl⟩ := h1
    simp only [MockItemStruct.items, gen_bind_ok, gen_pure_ok] at h
    obtain ⟨ph, hph, subs, hsubs, rfl⟩ := h
    have e1 : debugged subs.flatten = [] := by
      refine List.filterMap_eq_nil_iff.2 fun x hx => ?_
      obtain ⟨y, hy, hx⟩ := List.mem_flatten.1 hx
      obtain ⟨s, hs, e⟩ := mapM_mem' hsubs hy
      simp only [SubStruct.items, gen_bind_ok, gen_pure_ok] at e
      obtain ⟨_, -, rfl⟩ := e
      simp only [List.mem_cons, List.not_mem_nil, or_false] at hx
      rcases hx with rfl | rfl | rfl | rfl <;> rfl
    have e2 : ∀ l : List MockTrait,
        debugged (l.flatMap fun t => t.implItems ("__mock_" ++ m.name ++ "_" ++ t.ssName)) = [] := by
      refine fun l => List.filterMap_eq_nil_iff.2 fun x hx => ?_
      obtain ⟨u, -, hx⟩ := List.mem_flatMap.1 hx
      simp only [MockTrait.implItems, List.mem_cons, List.not_mem_nil, or_false] at hx
      rcases hx with rfl | rfl <;> rfl
    simp only [debugged_append, e1, e2]
    rw [MockItemStruct.debugImpl]
    split <;> rfl
  constructor
  · intro hd
    rw [key, if_pos (derivesDebug_iff.2 hd)]
  · intro hd
    rw [key, if_neg fun k => hd (derivesDebug_iff.1 k)]

/-- C69: no other `derive` is kept. -/
theorem C69_derives (hash : List Args → Nat) (m : MockableStruct) (items : List Item)
    (h : expandStruct hash m = .ok items) (hd : StructHead) (n : Ident) (fs : List Field)
    (hx : .struct hd n fs ∈ items) : ∀ a ∈ hd.attrs, ¬ Named "derive" a := by
  have key : ∀ (f : AttrFormatter) l, ∀ a ∈ f.format l, ¬ Named "derive" a := by
    rintro f l a ha ⟨i, args⟩
    have := (List.mem_filter.1 ha).2
    simp [AttrFormatter.keep, Attr.last] at this
  simp only [expandStruct, gen_bind_ok] at h
  obtain ⟨mi, h1, h⟩ := h
  simp only [MockItemStruct.items, gen_bind_ok, gen_pure_ok] at h
  obtain ⟨ph, hph, subs, hsubs, rfl⟩ := h
  simp only [List.mem_append, List.mem_cons, List.not_mem_nil, or_false, reduceCtorEq, false_or,
    Item.struct.injEq] at hx
  rcases hx with ((⟨rfl, rfl, rfl⟩ | hx) | hx) | hx
  · exact key _ _
  · unfold MockItemStruct.debugImpl at hx
    split at hx
    · cases List.mem_singleton.1 hx
    · cases hx
  · obtain ⟨x, hx1, hx⟩ := List.mem_flatten.1 hx
    obtain ⟨s, hs, e⟩ := mapM_mem' hsubs hx1
    simp only [SubStruct.items, gen_bind_ok, gen_pure_ok] at e
    obtain ⟨ph', hph', rfl⟩ := e
    simp only [List.mem_cons, List.not_mem_nil, or_false, reduceCtorEq, false_or, Item.struct.injEq] at hx
    obtain ⟨rfl, rfl, rfl⟩ := hx
    exact key _ _
  · obtain ⟨u, hu, h⟩ := List.mem_flatMap.1 hx
    simp [MockTrait.implItems] at h

/-- C69: a mock made by `#[automock]` always implements `Debug`. -/
theorem C69_automock (hash : List Args → Nat) :
    (∀ σ t items, automockTrait hash σ t = .ok items → debugged items = ["Mock" ++ t.ident]) ∧
    ∀ (i : ItemImpl) items lead n args, i.selfTy = .path lead [.mk n args] → automockImpl hash i = .ok items →
      debugged items = ["Mock" ++ n] := by
  have hd : ∀ l : List Attr, DerivesDebug (l ++ [deriveDebug]) := fun l =>
    ⟨_, List.mem_append_right _ List.mem_cons_self, List.mem_cons_self⟩
  constructor
  · intro σ t items h
    simp only [automockTrait, mockableFromTrait, substTrait, gen_bind_ok, gen_pure_ok] at h
    obtain ⟨ms, ⟨t1, ⟨its1, h1, rfl⟩, im, -, rfl⟩, h⟩ := h
    exact (C69_debug hash _ items h).1 (hd _)
  · intro i items lead n args hs h
    simp only [automockImpl, gen_bind_ok] at h
    obtain ⟨ms, h1, h⟩ := h
    simp only [mockableFromImpl, hs, implMockName, implMockName.go, findIdentFromPath, gen_bind_ok, gen_pure_ok] at h1
    obtain ⟨name, hname, h1⟩ := h1
    have : ms.name = "Mock" ++ n ∧ DerivesDebug ms.attrs := by
      have hn : name = "Mock" ++ n := by
        obtain ⟨_, rfl, h⟩ := hname
        split at h
        · split at h
          · cases h
          · simp only [gen_pure_ok] at h; exact h.symm
        · simp only [gen_pure_ok] at h; exact h.symm
      split at h1
      · split at h1
        · cases h1
        · simp only [gen_bind_ok, gen_pure_ok] at h1
          obtain ⟨_, -, _, -, _, -, rfl⟩ := h1
          exact ⟨hn, hd _⟩
      · simp only [gen_bind_ok, gen_pure_ok] at h1
        obtain ⟨_, -, rfl⟩ := h1
        exact ⟨hn, hd _⟩
    rw [(C69_debug hash _ items h).1 this.2, this.1]

/-! ## C70: `mock!` -/

theorem bangItems_ok {name : Ident} {g : Generics} : ∀ {l : List BangItem} {cs : List ConstItem} {fs : List ImplFn},
    bangItems name g l = .ok (cs, fs) →
      cs = bangConsts l ∧ Pointwise (fun f f' => mockableMethod name g f = .ok f') (bangMethods l) fs
  | [], cs, fs, h => by
    simp only [bangItems, gen_pure_ok, Prod.mk.injEq] at h
    obtain ⟨rfl, rfl⟩ := h
    exact ⟨rfl, .nil⟩
  | .method f :: l, cs, fs, h => by
    simp only [bangItems, gen_bind_ok, gen_pure_ok, Prod.mk.injEq] at h
    obtain ⟨f', hf, ⟨cs', fs'⟩, hl, rfl, rfl⟩ := h
    obtain ⟨k1, k2⟩ := bangItems_ok hl
    exact ⟨k1, .cons hf k2⟩
  | .const c :: l, cs, fs, h => by
    simp only [bangItems, gen_bind_ok, gen_pure_ok, Prod.mk.injEq] at h
    obtain ⟨⟨cs', fs'⟩, hl, rfl, rfl⟩ := h
    obtain ⟨k1, k2⟩ := bangItems_ok hl
    exact ⟨by rw [k1]; rfl, k2⟩
  | .other _ :: l, cs, fs, h => by simp [bangItems] at h

theorem implItems_ok {name : Ident} {g : Generics} : ∀ {l l' : List ImplItem},
    l.mapM (mockableImplItem name g) = .ok l' →
      constsOf l' = constsOf l ∧ typesOf l' = typesOf l ∧
      Pointwise (fun f f' => mockableMethod name g f = .ok f') (methodsOf l) (methodsOf l')
  | [], l', h => by
    simp only [List.mapM_nil, gen_pure_ok] at h
    subst h
    exact ⟨rfl, rfl, .nil⟩
  | i :: l, l', h => by
    simp only [List.mapM_cons, gen_bind_ok, gen_pure_ok] at h
    obtain ⟨i', hi, l'', hl, rfl⟩ := h
    obtain ⟨k1, k2, k3⟩ := implItems_ok hl
    cases i with
    | fn f =>
      simp only [mockableImplItem, gen_bind_ok, gen_pure_ok] at hi
      obtain ⟨f', hf, rfl⟩ := hi
      exact ⟨k1, k2, .cons hf k3⟩
    | const c =>
      simp only [mockableImplItem, gen_pure_ok] at hi
      subst hi
      exact ⟨congrArg (c :: ·) k1, k2, k3⟩
    | type c =>
      simp only [mockableImplItem, gen_pure_ok] at hi
      subst hi
      exact ⟨k1, congrArg (c :: ·) k2, k3⟩
    | other c =>
      simp only [mockableImplItem, gen_pure_ok] at hi
      subst hi
      exact ⟨k1, k2, k3⟩

/-- The trait that an item after the braces implements. -/
def bangTrait : BangImpl → Option TraitPath
  | .impl i => i.trait
  | .other _ => none

theorem bangTraits_some : ∀ {l : List BangImpl} {ps : List TraitPath}, ps.map some = l.map bangTrait →
    ps = bangTraits l
  | [], [], _ => rfl
  | [], _ :: _, h => by cases h
  | _ :: _, [], h => by cases h
  | x :: l, p :: ps, h => by
    simp only [List.map_cons, List.cons.injEq] at h
    have ih := bangTraits_some h.2
    cases x with
    | impl i =>
      simp only [bangTrait] at h
      simp only [bangTraits, List.filterMap_cons, ← h.1]
      exact congrArg (p :: ·) ih
    | other t => cases h.1

/-- C70: `mock!` generates a struct `Mock..` with the visibility and generics given, an `impl` with the
constants and a mock of each method, with its visibility, and implements the traits given, in order and no
others: with the constants, types, generics and methods written, for the type written, its name but for
`Mock`.  In signatures, `Self` and `impl Trait` are replaced, lifetimes are made explicit, provided nothing has
to change where the macro does not look (C42, C43, C64).  `Self` always becomes the generic struct; see
`C70_self` for an `impl` for another type. -/
theorem C70_mock_partial (hash : List Args → Nat) (b : Bang) (items : List Item)
    (hlts : LtsFirst b.generics.params)
    (hvis : ∀ f ∈ bangMethods b.items, Visible id (selfRewrite ("Mock" ++ b.ident) (paramArgs b.generics.params)) f.sig)
    (hvis' : ∀ i, .impl i ∈ b.impls → ∀ f ∈ methodsOf i.items,
      Visible id (selfRewrite ("Mock" ++ b.ident) (paramArgs b.generics.params)) f.sig)
    (h : mockBang hash b = .ok items) :
    (∃ a fields, .struct ⟨a, b.vis, b.generics⟩ ("Mock" ++ b.ident) fields ∈ items) ∧
    implemented items = bangTraits b.impls ∧
    Offers (selfRewrite ("Mock" ++ b.ident) (paramArgs b.generics.params)) b.generics (bangConsts b.items)
      (bangMethods b.items) ("Mock" ++ b.ident) items ∧
    ∀ i lead n args, .impl i ∈ b.impls → i.selfTy = .path lead [.mk n args] → ∃ p, i.trait = some p ∧
      Implements id (selfRewrite ("Mock" ++ b.ident) (paramArgs b.generics.params)) i ("Mock" ++ n) args p items := by
  simp only [mockBang, mockableFromBang, gen_bind_ok, gen_pure_ok] at h
  obtain ⟨m, ⟨⟨cs, fs⟩, h1, is, h2, rfl⟩, h⟩ := h
  obtain ⟨rfl, k2⟩ := bangItems_ok h1
  obtain ⟨s1, hd, fns, rest, s2, s3, s4, s5, s6⟩ := struct_main h
  refine ⟨s1, ?_, ?_, ?_⟩
  · refine bangTraits_some ((struct_implemented h).trans ?_)
    have := mapM_pointwise (R := fun x i => i.trait = bangTrait x) (fun x _ i k => ?_) h2
    · exact pointwise_map (fun _ _ k => k) this
    · cases x with
      | impl i' =>
        simp only [bangImpl, mockableItemImpl, gen_bind_ok, gen_pure_ok] at k
        obtain ⟨_, -, _, -, rfl⟩ := k
        rfl
      | other t => simp [bangImpl] at k
  · refine ⟨hd, fns, rest, s2, s3, by rw [s4]; exact typeArgs_eq hlts, s5, ?_⟩
    refine pointwise_comp k2 s6 ?_
    rintro f hf f' g hf' ⟨x, hx, rfl⟩
    obtain ⟨e1, e2, e3, e4⟩ := mockableMethod_ok (hvis f hf) hf'
    exact mocksMethod_of e1 e3 e4 hx e2
  · intro i lead n args hi hs
    obtain ⟨i', hi', e⟩ := mapM_mem h2 hi
    simp only [bangImpl, mockableItemImpl, hs, mockIdentInType, gen_bind_ok, gen_pure_ok] at e
    obtain ⟨_, rfl, l, hl, rfl⟩ := e
    obtain ⟨p, seg, md, hd, fns, t1, t2, t3, t4, t5, t6, t7, t8, t9⟩ := struct_trait h hi'
    simp only [selfPathOf, selfPathOf.lastOf, List.getLast?_singleton, gen_pure_ok] at t2
    subst t2
    obtain ⟨j1, j2, j3⟩ := implItems_ok hl
    refine ⟨p, t1, hd, fns, t3, t4, t5, t6, by rw [t7, j1], by rw [t8, j2], ?_⟩
    refine pointwise_comp j3 t9 ?_
    rintro f hf f' g hf' ⟨t, x, hx, rfl⟩
    obtain ⟨e1, e2, e3, e4⟩ := mockableMethod_ok (hvis' i hi f hf) hf'
    exact mocksMethod_of e1 e3 e4 hx rfl

/-! ## C71: `#[automock]` on an `impl` -/

theorem inherentItems_ok {name : Ident} {g : Generics} : ∀ {l : List ImplItem} {cs : List ConstItem}
    {fs : List ImplFn}, inherentItems name g l = .ok (cs, fs) →
      cs = constsOf l ∧ typesOf l = [] ∧ Pointwise (fun f f' => mockableMethod name g f = .ok f') (methodsOf l) fs
  | [], cs, fs, h => by
    simp only [inherentItems, gen_pure_ok, Prod.mk.injEq] at h
    obtain ⟨rfl, rfl⟩ := h
    exact ⟨rfl, rfl, .nil⟩
  | .fn f :: l, cs, fs, h => by
    simp only [inherentItems, gen_bind_ok, gen_pure_ok, Prod.mk.injEq] at h
    obtain ⟨f', hf, ⟨cs', fs'⟩, hl, rfl, rfl⟩ := h
    obtain ⟨k1, k2, k3⟩ := inherentItems_ok hl
    exact ⟨k1, k2, .cons hf k3⟩
  | .const c :: l, cs, fs, h => by
    simp only [inherentItems, gen_bind_ok, gen_pure_ok, Prod.mk.injEq] at h
    obtain ⟨⟨cs', fs'⟩, hl, rfl, rfl⟩ := h
    obtain ⟨k1, k2, k3⟩ := inherentItems_ok hl
    exact ⟨by rw [k1]; rfl, k2, k3⟩
  | .type _ :: l, cs, fs, h => by simp [inherentItems] at h
  | .other _ :: l, cs, fs, h => by simp [inherentItems] at h

theorem implMockName_ok {g : Generics} {lead : Bool} {n name : Ident} {args : Args}
    (h : implMockName g (.path lead [.mk n args]) = .ok name) : name = "Mock" ++ n := by
  simp only [implMockName, implMockName.go, findIdentFromPath, gen_bind_ok, gen_pure_ok] at h
  obtain ⟨_, rfl, h⟩ := h
  split at h
  · split at h
    · cases h
    · simp only [gen_pure_ok] at h; exact h.symm
  · simp only [gen_pure_ok] at h; exact h.symm

/-- C71: `#[automock]` on `impl Foo` generates a public struct `MockFoo` with the generics of the `impl`, its
constants, and a mock of each of its methods, with their visibility.  It implements no trait. -/
theorem C71_inherent_partial (hash : List Args → Nat) (i : ItemImpl) (items : List Item) (lead : Bool) (n : Ident)
    (args : Args) (hs : i.selfTy = .path lead [.mk n args]) (ht : i.trait = none)
    (hlts : LtsFirst i.generics.params)
    (hvis : ∀ f ∈ methodsOf i.items, Visible id (selfRewrite ("Mock" ++ n) (paramArgs i.generics.params)) f.sig)
    (h : automockImpl hash i = .ok items) :
    (∃ a fields, .struct ⟨a, .pub, i.generics⟩ ("Mock" ++ n) fields ∈ items) ∧ implemented items = [] ∧
    typesOf i.items = [] ∧
    Offers (selfRewrite ("Mock" ++ n) (paramArgs i.generics.params)) i.generics (constsOf i.items)
      (methodsOf i.items) ("Mock" ++ n) items := by
  simp only [automockImpl, mockableFromImpl, ht, hs, gen_bind_ok, gen_pure_ok] at h
  obtain ⟨m, ⟨name, hname, ⟨cs, fs⟩, h1, rfl⟩, h⟩ := h
  obtain rfl := implMockName_ok hname
  obtain ⟨rfl, k1, k2⟩ := inherentItems_ok h1
  obtain ⟨s1, hd, fns, rest, s2, s3, s4, s5, s6⟩ := struct_main h
  refine ⟨s1, ?_, k1, ?_⟩
  · have := struct_implemented h
    simpa using this
  · refine ⟨hd, fns, rest, s2, s3, by rw [s4]; exact typeArgs_eq hlts, s5, ?_⟩
    refine pointwise_comp k2 s6 ?_
    rintro f hf f' g hf' ⟨x, hx, rfl⟩
    obtain ⟨e1, e2, e3, e4⟩ := mockableMethod_ok (hvis f hf) hf'
    exact mocksMethod_of e1 e3 e4 hx e2

theorem implTypes_ok : ∀ {l : List ImplItem} {σ τ : Subst}, implTypes l σ = .ok τ →
    ∀ i, τ.lookup i = (implTypeOf l i).or (σ.lookup i)
  | [], σ, τ, h, i => by
    simp only [implTypes, gen_pure_ok] at h
    subst h
    rw [implTypeOf, Option.none_or]
  | .const _ :: l, σ, τ, h, i => implTypes_ok (l := l) h i
  | .fn _ :: l, σ, τ, h, i => implTypes_ok (l := l) h i
  | .type t :: l, σ, τ, h, i => by
    rw [implTypes_ok (l := l) h i, implTypeOf, Option.or_assoc]
    congr 1
    rw [List.lookup_cons]
    by_cases e : i = t.id
    · rw [if_pos e.symm]; simp [e]
    · rw [if_neg (Ne.symm e), beq_false_of_ne e]; rfl
  | .other _ :: l, σ, τ, h, i => by simp [implTypes] at h

theorem substItems_ok {σ : Subst} {trait : Ident} : ∀ {l l' : List ImplItem},
    l.mapM (substImplItem σ trait) = .ok l' →
      constsOf l' = constsOf l ∧ typesOf l' = typesOf l ∧
      Pointwise (fun f f' => ∃ s, substSig σ trait f.sig = .ok s ∧ f' = { f with sig := s }) (methodsOf l) (methodsOf l')
  | [], l', h => by
    simp only [List.mapM_nil, gen_pure_ok] at h
    subst h
    exact ⟨rfl, rfl, .nil⟩
  | i :: l, l', h => by
    simp only [List.mapM_cons, gen_bind_ok, gen_pure_ok] at h
    obtain ⟨i', hi, l'', hl, rfl⟩ := h
    obtain ⟨k1, k2, k3⟩ := substItems_ok hl
    cases i with
    | fn f =>
      simp only [substImplItem, gen_bind_ok, gen_pure_ok] at hi
      obtain ⟨s, hs, rfl⟩ := hi
      exact ⟨k1, k2, .cons ⟨s, hs, rfl⟩ k3⟩
    | const c =>
      simp only [substImplItem, gen_pure_ok] at hi
      subst hi
      exact ⟨congrArg (c :: ·) k1, k2, k3⟩
    | type c =>
      simp only [substImplItem, gen_pure_ok] at hi
      subst hi
      exact ⟨k1, congrArg (c :: ·) k2, k3⟩
    | other c =>
      simp only [substImplItem, gen_pure_ok] at hi
      subst hi
      exact ⟨k1, k2, k3⟩

/-- C71: `#[automock]` on `impl Trait for Foo` generates a public struct `MockFoo` with the generics of the
`impl` and implements `Trait` for it, and nothing else: constants, types and generics are those of the `impl`,
there is a mock of each method.  In signatures, associated types are replaced by those that the `impl` gives
them, the rest is as in C70.  Provided the macro looks where there is something to replace. -/
theorem C71_trait_partial (hash : List Args → Nat) (i : ItemImpl) (items : List Item) (lead : Bool) (n : Ident)
    (args : Args) (hs : i.selfTy = .path lead [.mk n args]) (p : TraitPath) (ht : i.trait = some p)
    (hassoc : ∀ f ∈ methodsOf i.items, VisibleAssoc f.sig)
    (hvis : ∀ s ∈ p.segs, ∀ f ∈ methodsOf i.items, Visible (replace (assocReplace (implTypeOf i.items) s.id))
      (selfRewrite ("Mock" ++ n) (paramArgs i.generics.params)) f.sig)
    (h : automockImpl hash i = .ok items) :
    (∃ a fields, .struct ⟨a, .pub, i.generics⟩ ("Mock" ++ n) fields ∈ items) ∧ implemented items = [p] ∧
    i.bang = false ∧ ∃ s, p.segs = [s] ∧
      Implements (replace (assocReplace (implTypeOf i.items) s.id))
        (selfRewrite ("Mock" ++ n) (paramArgs i.generics.params)) i ("Mock" ++ n) args p items := by
  simp only [automockImpl, mockableFromImpl, ht, hs, gen_bind_ok] at h
  obtain ⟨m, ⟨name, hname, h1⟩, h⟩ := h
  obtain rfl := implMockName_ok hname
  cases hb : i.bang with
  | true => rw [hb] at h1; simp at h1
  | false =>
    simp only [hb, Bool.false_eq_true, if_false, gen_bind_ok, gen_pure_ok, substItemImpl, ht] at h1
    obtain ⟨σ, hσ, i1, ⟨tr, htr, l1, hl1, rfl⟩, i2, h2, rfl⟩ := h1
    have hσ : (fun i => σ.lookup i) = implTypeOf i.items := by
      funext k
      rw [implTypes_ok hσ k]
      simp
    have hseg : ∃ s, p.segs = [s] ∧ tr = s.id := by
      unfold findIdentFromPath at htr
      split at htr
      · rename_i s hs
        simp only [gen_pure_ok] at htr
        exact ⟨s, hs, htr.symm⟩
      · cases htr
    obtain ⟨s, hseg, rfl⟩ := hseg
    have hmem : s ∈ p.segs := by rw [hseg]; exact List.mem_cons_self
    obtain ⟨q1, q2, q3⟩ := substItems_ok hl1
    simp only [mockableItemImpl, hs, mockIdentInType, gen_bind_ok, gen_pure_ok] at h2
    obtain ⟨_, rfl, l, hl, rfl⟩ := h2
    obtain ⟨j1, j2, j3⟩ := implItems_ok hl
    refine ⟨(struct_main h).1, ?_, rfl, s, hseg, ?_⟩
    · have := struct_implemented h
      simp only [List.map_cons, List.map_nil] at this
      cases hi : implemented items with
      | nil => rw [hi] at this; cases this
      | cons a l =>
        rw [hi] at this
        simp only [List.map_cons, List.cons.injEq, Option.some.injEq, List.map_eq_nil_iff] at this
        rw [this.1, this.2]
    · obtain ⟨p', seg, md, hd, fns, t1, t2, t3, t4, t5, t6, t7, t8, t9⟩ := struct_trait h List.mem_cons_self
      simp only [selfPathOf, selfPathOf.lastOf, List.getLast?_singleton, gen_pure_ok] at t2
      subst t2
      obtain rfl : p = p' := Option.some.inj t1
      refine ⟨hd, fns, t3, t4, t5, t6, by rw [t7, j1, q1], by rw [t8, j2, q2], ?_⟩
      refine pointwise_comp (pointwise_comp q3 j3 (T := fun f f' => ∃ s1, substSig σ s.id f.sig = .ok s1 ∧
        mockableMethod ("Mock" ++ n) i.generics { f with sig := s1 } = .ok f') ?_) t9 ?_
      · rintro f hf f1 f2 ⟨s1, k1, rfl⟩ k2
        exact ⟨s1, k1, k2⟩
      · rintro f hf f' g ⟨s1, k1, k2⟩ ⟨t, x, hx, rfl⟩
        obtain ⟨v1, v2⟩ := mockSig_comp (R := selfRewrite ("Mock" ++ n) (paramArgs i.generics.params))
          (hassoc f hf) k1
        rw [hσ] at v1 v2
        obtain ⟨e1, e2, e3, e4⟩ := mockableMethod_ok (v1 (hvis s hmem f hf)) k2
        exact mocksMethod_of (f := f) e1 e3 (v2 _ e4) hx rfl

/-! ## C66: the names of mocks -/

theorem declares_mock {hash : List Args → Nat} {n : Ident} {items : List Item} (h : MockedType hash n items) :
    Declares items ("Mock" ++ n) := by
  cases h with
  | trait σ t _ h =>
    simp only [automockTrait, mockableFromTrait, substTrait, gen_bind_ok, gen_pure_ok] at h
    obtain ⟨ms, ⟨t1, ⟨its1, h1, rfl⟩, im, -, rfl⟩, h⟩ := h
    obtain ⟨a, f, k⟩ := (struct_main h).1
    exact ⟨_, _, k⟩
  | impl i lead _ args _ hs h =>
    simp only [automockImpl, mockableFromImpl, hs, gen_bind_ok] at h
    obtain ⟨m, ⟨name, hname, h1⟩, h⟩ := h
    obtain rfl := implMockName_ok hname
    obtain ⟨a, f, k⟩ := (struct_main h).1
    have : m.name = "Mock" ++ n := by
      split at h1
      · split at h1
        · cases h1
        · simp only [gen_bind_ok, gen_pure_ok] at h1
          obtain ⟨_, -, _, -, _, -, rfl⟩ := h1
          rfl
      · simp only [gen_bind_ok, gen_pure_ok] at h1
        obtain ⟨_, -, rfl⟩ := h1
        rfl
    exact ⟨_, _, this ▸ k⟩
  | mock b _ h =>
    simp only [mockBang, mockableFromBang, gen_bind_ok, gen_pure_ok] at h
    obtain ⟨m, ⟨⟨cs, fs⟩, h1, is, h2, rfl⟩, h⟩ := h
    obtain ⟨a, f, k⟩ := (struct_main h).1
    exact ⟨_, _, k⟩

/-- C66: `#[double] use path::Foo;` brings into scope, under the same name, the mock that `#[automock]` and
`mock!` make of `Foo`, and `#[double] use path::foo;` that of a module `foo`.  Provided types begin with an
upper case letter, and modules do not. -/
theorem C66_names_partial (hash : List Args → Nat) (isUpper : Char → Bool) (t real mock : Double.UseTree)
    (ho : Ordinary t) (h : Double.doubleUse isUpper t = .ok (real, mock)) (pre : List String) (n x : String)
    (hb : ⟨pre ++ [n], x⟩ ∈ bindings [] t) :
    (n.toList.head?.any isUpper = true → ∀ items, MockedType hash n items →
      ∃ k, ⟨pre ++ [k], x⟩ ∈ bindings [] mock ∧ Declares items k) ∧
    (n.toList.head?.any isUpper = false → ∀ m o, m.ident = n → expandModule m = .ok o →
      ⟨pre ++ [o.name], x⟩ ∈ bindings [] mock) := by
  obtain ⟨-, e, -⟩ := C48_double_partial t real mock ho h
  have : (⟨pre ++ [mockName isUpper n], x⟩ : Binding) ∈ bindings [] mock := by
    rw [e]
    refine List.mem_map.2 ⟨_, hb, ?_⟩
    simp [mockOf]
  constructor
  · intro hu items hi
    refine ⟨_, this, ?_⟩
    rw [mockName, if_pos hu]
    exact declares_mock hi
  · intro hu m o hm ho'
    have hn : o.name = "mock_" ++ n := by
      cases hc : m.content with
      | none => simp [expandModule, mockableModule, hc] at ho'
      | some l =>
        obtain ⟨l', cs, h1, h2, hn, -⟩ := expand_module ho' hc
        rw [hn, hm]
    rw [hn]
    rw [mockName, hu] at this
    exact this

/-! ## Examples -/

/-- What a generator yields, as far as `f` looks. -/
theorem yields {α β : Type} {x : Gen α} {f : α → β} {b : β} (h : x.toOption.map f = some b) :
    ∃ a, x = .ok a ∧ f a = b := by
  cases x with
  | error e => cases h
  | ok a => exact ⟨a, rfl, Option.some.inj h⟩

/-- `#[must_use] #[doc = ".."]`. -/
def exAttrs : List Attr := [.plain [] "must_use" [], .plain [] "doc" ["d"]]

/-- The trait of C65 with attributes: C67 applies, and `mock!` yields the same 11 items. -/
example : LtsFirst exTrait.generics.params ∧ (∀ f ∈ traitFns exTrait.items, VisibleAssoc f.sig) ∧
    Without (Named "must_use") exAttrs [.plain [] "doc" ["d"]] ∧
    ∃ items, automockTrait (fun _ => 7) exσ { exTrait with attrs := exAttrs } = .ok items ∧ items.length = 11 := by
  refine ⟨⟨[_], [_], rfl, by simp, by simp⟩, ?_, .skip ⟨_, _⟩ (.keep (fun h => absurd ((named_last (by decide)).1 h) (by decide)) .nil), yields (by decide +kernel)⟩
  intro f hf
  simp only [traitFns, exTrait, List.filterMap_cons, List.filterMap_nil, List.mem_cons, List.not_mem_nil,
    or_false] at hf
  rcases hf with rfl | rfl
  · refine ⟨?_, ?_⟩
    · intro a p u hu
      simp only [exGet, refSelf, List.mem_cons, reduceCtorEq, FnArg.typed.injEq, List.not_mem_nil, or_false,
        false_or] at hu
      rcases hu with ⟨-, -, rfl⟩ | ⟨-, -, rfl⟩ <;> exact fun _ h => nomatch h
    · intro u hu
      cases hu
      exact fun _ h => nomatch h
  · refine ⟨?_, ?_⟩
    · intro a p u hu
      simp [exRun] at hu
    · intro u hu
      cases hu
      exact fun _ h => nomatch h

/-- `fn get(&self, x: Self) -> Option<Self>`, called `n`. -/
def exFn (n : Ident) : ImplFn where
  vis := .restricted false ["crate"]
  sig := {
    ident := n
    inputs := [refSelf, .typed [] (.ident false false "x" false) tySelf]
    output := .ty (.path false [.mk "Option" (.angle [.ty tySelf])]) }

/-- `T`. -/
def exT : Generics := { angle := true, params := [.ty { id := "T" }] }

/-- `<T>`. -/
def exArgs : Args := .angle [.ty (.name "T")]

theorem exFn_visible {n : Ident} : Visible id (selfRewrite "MockFoo" exArgs) (exFn n).sig := by
  refine ⟨?_, ?_, ?_⟩
  · intro a p u hu
    simp only [exFn, refSelf, List.mem_cons, reduceCtorEq, FnArg.typed.injEq, List.not_mem_nil, or_false,
      false_or] at hu
    obtain ⟨-, -, rfl⟩ := hu
    exact ⟨notSelf_of (by decide +kernel), by decide +kernel⟩
  · intro r m u hu
    simp [exFn, refSelf] at hu
  · intro u q hu hq
    cases hu
    cases hq
    exact ⟨notSelf_of (by decide +kernel), notAnon_of (by decide +kernel)⟩

/-- ```
mock! {
    #[derive(Clone, Debug)]
    pub Foo<T> { const N: u32 = 3; pub(crate) fn get(&self, x: Self) -> Option<Self>; }
    impl<T> Tr for Foo<T> { type X = u32; fn new(&self, x: Self) -> Option<Self>; }
}
``` -/
def exBang : Bang where
  attrs := [.plain [] "derive" ["Clone", "Debug"]]
  vis := .pub
  ident := "Foo"
  generics := exT
  items := [.const { id := "N", ty := "u32", value := "3" }, .method (exFn "get")]
  impls := [.impl { generics := exT, trait := some ⟨false, [.of "Tr"]⟩
                    selfTy := .path false [.mk "Foo" exArgs]
                    items := [.type { id := "X", ty := .name "u32" }, .fn (exFn "new")] }]

/-- C70 applies to it; by C69 it implements `Debug`. -/
example : LtsFirst exBang.generics.params ∧
    (∀ f ∈ bangMethods exBang.items, Visible id (selfRewrite "MockFoo" exArgs) f.sig) ∧
    (∀ i, .impl i ∈ exBang.impls → ∀ f ∈ methodsOf i.items, Visible id (selfRewrite "MockFoo" exArgs) f.sig) ∧
    ∃ items, mockBang (fun _ => 7) exBang = .ok items ∧
      (implemented items, debugged items, items.filterMap structName, hasFn items "MockFoo" none "new" .new) =
        ([⟨false, [.of "Tr"]⟩], ["MockFoo"], ["MockFoo", "MockFoo_Tr"], false) := by
  refine ⟨⟨[], [_], rfl, by simp, by simp⟩, ?_, ?_, yields (by decide +kernel)⟩
  · intro f hf
    obtain rfl : f = exFn "get" := by simpa [bangMethods, exBang] using hf
    exact exFn_visible
  · intro i hi f hf
    simp only [exBang, List.mem_singleton, BangImpl.impl.injEq] at hi
    subst hi
    obtain rfl : f = exFn "new" := by simpa [methodsOf] using hf
    exact exFn_visible

/-- The definition that `exBang` stands for has a `new`, if only in a trait. -/
example : ∃ m, mockableFromBang exBang = .ok m ∧ (m.methods.map (·.sig.ident)) = ["get"] ∧
    ∃ items, expandStruct (fun _ => 7) m = .ok items := by
  obtain ⟨m, h1, h2⟩ := yields (x := mockableFromBang exBang)
    (f := fun m => (m.methods.map (·.sig.ident), (expandStruct (fun _ => 7) m).toBool))
    (b := (["get"], true)) (by decide +kernel)
  simp only [Prod.mk.injEq] at h2
  refine ⟨m, h1, h2.1, ?_⟩
  cases h : expandStruct (fun _ => 7) m with
  | error e => rw [h] at h2; exact absurd h2.2 Bool.false_ne_true
  | ok items => exact ⟨items, rfl⟩

/-- C68: contrary to its documentation (S:171-178), `new` is not generated if only a trait has one:
`mock! { pub Foo {} impl Tr for Foo { fn new(..); } }` has no `MockFoo::new`. -/
theorem C68_trait_new :
    ∃ items, mockBang (fun _ => 7) { exBang with items := [] } = .ok items ∧
      ¬ ∃ hd fns g, .impl hd "MockFoo" none fns ∈ items ∧ g ∈ fns ∧ g.name = "new" := by
  obtain ⟨items, h1, h2⟩ := yields (x := mockBang (fun _ => 7) { exBang with items := [] })
    (f := fun l => l.all fun | .impl _ "MockFoo" none fns => fns.all fun g => g.name != "new" | _ => true)
    (b := true) (by decide +kernel)
  refine ⟨items, h1, ?_⟩
  rintro ⟨hd, fns, g, hi, hg, hn⟩
  have := List.all_eq_true.1 (List.all_eq_true.1 h2 _ hi) g hg
  simp [hn] at this

/-- C68: a `new` that is not compiled is not replaced either: with `#[cfg(windows)] fn new(..)`, there is no
`new` where there is no Windows. -/
theorem C68_cfg_new :
    ∃ items, mockBang (fun _ => 7)
        { ident := "Foo", items := [.method { exFn "new" with attrs := [.plain [] "cfg" ["windows"]] }] } = .ok items ∧
      ¬ ∃ hd fns g, .impl hd "MockFoo" none fns ∈ unix.strip items ∧ g ∈ fns ∧ g.name = "new" := by
  obtain ⟨items, h1, h2⟩ := yields (x := mockBang (fun _ => 7)
        { ident := "Foo", items := [.method { exFn "new" with attrs := [.plain [] "cfg" ["windows"]] }] })
    (f := fun l => (unix.strip l).all fun | .impl _ "MockFoo" none fns => fns.all fun g => g.name != "new" | _ => true)
    (b := true) (by decide +kernel)
  refine ⟨items, h1, ?_⟩
  rintro ⟨hd, fns, g, hi, hg, hn⟩
  have := List.all_eq_true.1 (List.all_eq_true.1 h2 _ hi) g hg
  simp [hn] at this

/-- The types returned by the methods of the `impl`s of traits. -/
def traitOutputs (l : List Item) : List (Args × List (Option Ret)) :=
  l.filterMap fun
    | .impl hd _ (some _) fns => some (hd.selfArgs, fns.map fun g => g.head.sig.map Sig.output)
    | _ => none

/-- C70 fails for `Self` if the `impl` is for another type than the generic struct:
`mock! { Foo<T> {} impl Tr for Foo<u32> { fn new(&self, x: Self) -> Option<Self>; } }` has a method of
`MockFoo<u32>` that returns `Option<MockFoo<T>>`. -/
theorem C70_self :
    let i : ItemImpl := {
      trait := some ⟨false, [.of "Tr"]⟩
      selfTy := .path false [.mk "Foo" (.angle [.ty (.name "u32")])]
      items := [.fn (exFn "new")] }
    ∃ items, mockBang (fun _ => 7) { ident := "Foo", generics := exT, impls := [.impl i] } = .ok items ∧
      traitOutputs items = [(.angle [.ty (.name "u32")],
        [some (.ty (.path false [.mk "Option" (.angle [.ty (.path false [.mk "MockFoo" exArgs])])]))])] :=
  yields (by decide +kernel)

/-- C70: `mock!` ignores a `!`: `impl !Tr for Foo {}` implements `Tr`. -/
theorem C70_negative :
    let i : ItemImpl := { bang := true, trait := some ⟨false, [.of "Tr"]⟩, selfTy := .name "Foo", items := [] }
    ∃ items, mockBang (fun _ => 7) { ident := "Foo", impls := [.impl i] } = .ok items ∧
      implemented items = [⟨false, [.of "Tr"]⟩] :=
  yields (by decide +kernel)

/-- `#[automock] impl<T> Foo<T> { const N: u32 = 3; pub(crate) fn get(&self, x: Self) -> Option<Self> {..} }`. -/
def exInherent : ItemImpl where
  generics := exT
  trait := none
  selfTy := .path false [.mk "Foo" exArgs]
  items := [.const { id := "N", ty := "u32", value := "3" }, .fn (exFn "get")]

/-- C71 applies to it. -/
example : LtsFirst exInherent.generics.params ∧
    (∀ f ∈ methodsOf exInherent.items, Visible id (selfRewrite "MockFoo" exArgs) f.sig) ∧
    ∃ items, automockImpl (fun _ => 7) exInherent = .ok items ∧
      items.filterMap structName = ["MockFoo"] := by
  refine ⟨⟨[], [_], rfl, by simp, by simp⟩, ?_, yields (by decide +kernel)⟩
  intro f hf
  obtain rfl : f = exFn "get" := by simpa [methodsOf, exInherent] using hf
  exact exFn_visible

/-- `fn next(&self) -> Option<Self::Item>`. -/
def exNext : ImplFn where
  sig := {
    ident := "next"
    inputs := [refSelf]
    output := .ty (.path false [.mk "Option" (.angle [.ty (.path false [.of "Self", .of "Item"])])]) }

/-- `#[automock] impl<T> Iterator for Foo<T> { type Item = T; fn next(&self) -> Option<Self::Item> {..} }`. -/
def exTraitImpl : ItemImpl where
  generics := exT
  trait := some ⟨false, [.of "Iterator"]⟩
  selfTy := .path false [.mk "Foo" exArgs]
  items := [.type { id := "Item", ty := .name "T" }, .fn exNext]

/-- C71 applies to it, and the method returns an `Option<T>`. -/
example : (∀ f ∈ methodsOf exTraitImpl.items, VisibleAssoc f.sig) ∧
    (∀ s ∈ [Seg.of "Iterator"], ∀ f ∈ methodsOf exTraitImpl.items,
      Visible (replace (assocReplace (implTypeOf exTraitImpl.items) s.id)) (selfRewrite "MockFoo" exArgs) f.sig) ∧
    ∃ items, automockImpl (fun _ => 7) exTraitImpl = .ok items ∧
      traitOutputs items = [(exArgs, [some (.ty (.path false [.mk "Option" exArgs]))])] := by
  refine ⟨?_, ?_, yields (by decide +kernel)⟩
  · intro f hf
    obtain rfl : f = exNext := by simpa [methodsOf, exTraitImpl] using hf
    refine ⟨?_, ?_⟩
    · intro a p u hu
      simp [exNext, refSelf] at hu
    · intro u hu
      cases hu
      exact fun _ h => nomatch h
  · intro s hs f hf
    rw [List.mem_singleton] at hs
    subst hs
    obtain rfl : f = exNext := by simpa [methodsOf, exTraitImpl] using hf
    refine ⟨?_, ?_, ?_⟩
    · intro a p u hu
      simp [exNext, refSelf] at hu
    · intro r m u hu
      simp [exNext, refSelf] at hu
    · intro u q hu hq
      cases hu
      have e : replace (assocReplace (implTypeOf exTraitImpl.items) (Seg.of "Iterator").id)
          (.path false [.mk "Option" (.angle [.ty (.path false [.of "Self", .of "Item"])])]) =
          .path false [.mk "Option" exArgs] := by decide +kernel
      rw [e] at hq
      cases hq
      exact ⟨notSelf_of (by decide +kernel), notAnon_of (by decide +kernel)⟩

/-- C71 gives no code that compiles if the parameters of the `impl` are not those of the type:
`#[automock] impl<T> Tr<T> for Foo` declares a struct with a parameter, and implements the trait for `MockFoo`
without. -/
theorem C71_unapplied :
    ∃ items, automockImpl (fun _ => 7) { generics := exT, trait := some ⟨false, [.mk "Tr" exArgs]⟩, items := []
                                         selfTy := .name "Foo" } = .ok items ∧
      (∃ a v fields, .struct ⟨a, v, exT⟩ "MockFoo" fields ∈ items) ∧
      ∃ hd p fns, .impl hd "MockFoo" (some p) fns ∈ items ∧ hd.selfArgs = .none := by
  obtain ⟨items, h1, h2⟩ := yields (x := automockImpl (fun _ => 7)
      { generics := exT, trait := some ⟨false, [.mk "Tr" exArgs]⟩, items := [], selfTy := .name "Foo" })
    (f := fun l => (traitOutputs l)) (b := [(.none, [])]) (by decide +kernel)
  refine ⟨items, h1, ?_, ?_⟩
  · obtain ⟨⟨a, fields, k⟩, -⟩ := C71_trait_partial _ _ _ false "Foo" .none rfl ⟨false, [.mk "Tr" exArgs]⟩ rfl
      (by intro f hf; cases hf) (by intro s hs f hf; cases hf) h1
    exact ⟨_, _, _, k⟩
  · obtain ⟨-, -, -, s, -, hd, fns, k, -, -, e, -⟩ := C71_trait_partial _ _ _ false "Foo" .none rfl
      ⟨false, [.mk "Tr" exArgs]⟩ rfl (by intro f hf; cases hf) (by intro s hs f hf; cases hf) h1
    exact ⟨_, _, _, k, e⟩

/-- `#[double] use a::{Foo, bar as b};` next to `mock! { Foo<T> .. }` and `#[automock] mod bar`. -/
example :
    let n (s : String) : Double.Id := ⟨s, false⟩
    let t : Double.UseTree := .path (n "a") (.group [.name (n "Foo"), .rename (n "bar") (n "b")])
    Ordinary t ∧ (∃ m, Double.doubleUse asciiUpper t = .ok (t, m)) ∧
      ⟨["a"] ++ ["Foo"], "Foo"⟩ ∈ bindings [] t ∧ ⟨["a"] ++ ["bar"], "b"⟩ ∈ bindings [] t ∧
      "Foo".toList.head?.any asciiUpper = true ∧ "bar".toList.head?.any asciiUpper = false ∧
      (∃ items, MockedType (fun _ => 7) "Foo" items) ∧
      ∃ m o, m.ident = "bar" ∧ expandModule m = .ok o := by
  refine ⟨by simp [Ordinary, Ordinarys], ⟨_, rfl⟩, by decide +kernel, by decide +kernel, by decide +kernel,
    by decide +kernel, ?_, { ident := "bar", content := some [] }, _, rfl, rfl⟩
  obtain ⟨items, h, -⟩ := yields (x := mockBang (fun _ => 7) exBang) (f := List.length) (b := 11) (by decide +kernel)
  exact ⟨items, .mock exBang items h⟩

/-- C66 fails for types that do not begin with an upper case letter: the mock of the trait `foo` is called
`Mockfoo`, but `#[double] use a::foo` imports `a::mock_foo`. -/
theorem C66_lower_type :
    ∃ t mock items, Double.doubleUse asciiUpper t = .ok (t, mock) ∧ bindings [] t = [⟨["a", "foo"], "foo"⟩] ∧
      bindings [] mock = [⟨["a", "mock_foo"], "foo"⟩] ∧
      automockTrait (fun _ => 7) [] { exCfgTrait with ident := "foo" } = .ok items ∧
      "mock_foo" ∉ items.filterMap structName := by
  obtain ⟨items, h, k⟩ := yields (x := automockTrait (fun _ => 7) [] { exCfgTrait with ident := "foo" })
    (f := fun l => l.filterMap structName) (b := ["Mockfoo", "Mockfoo_foo"]) (by decide +kernel)
  exact ⟨.path ⟨"a", false⟩ (.name ⟨"foo", false⟩), _, items, rfl, rfl, by decide +kernel, h,
    by rw [k]; decide +kernel⟩

/-- C66 fails for modules that do: the mock of the module `Foo` is called `mock_Foo`, but `#[double] use a::Foo`
imports `a::MockFoo`. -/
theorem C66_upper_module :
    ∃ t mock o, Double.doubleUse asciiUpper t = .ok (t, mock) ∧ bindings [] t = [⟨["a", "Foo"], "Foo"⟩] ∧
      bindings [] mock = [⟨["a", "MockFoo"], "Foo"⟩] ∧
      expandModule { ident := "Foo", content := some [] } = .ok o ∧ o.name = "mock_Foo" :=
  ⟨.path ⟨"a", false⟩ (.name ⟨"Foo", false⟩), _, _, rfl, rfl, by decide +kernel, rfl, by decide +kernel⟩

end Mockall.Props
