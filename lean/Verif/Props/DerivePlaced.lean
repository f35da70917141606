import Verif.Props.DeriveConcretize
import Verif.Props.DeriveMacros

/-! # C41, C47, C49 and C61 for whole mocks

The theorems of these names about one function say what happens for a given number of generated modules around
it, and with or without `concretize`.  Here both come from what the user wrote: the modules are those that are
generated, and the attributes are those of the function. -/

namespace Mockall.Props

open Derive Spec

/-! ## What is said of a function -/

/-- C41 for a function with signature `s`, the expectations of which are `levels` modules further down: types and
bounds in them mean what they mean where the function was written. -/
structure PathsKept (levels : Nat) (attrs : List Attr) (s : Sig) (x : MockFn) : Prop where
  output : ∀ t, s.output = .ty t → (∀ lt m e, t = .ref lt m e → ¬ Special e) → MeansSame levels t x.output
  args : (∀ a ∈ attrs, Plain a ∧ ¬ IsConcretize a) → ∃ vals, Minus (fun a => ¬ IsValueArg a) s.inputs vals ∧
    Pointwise (fun a c => ∃ as p t t', a = .typed as p t ∧ Boxes s.generics t t' ∧ MeansSame levels t' c.ty) vals x.args
  generics : (∀ a ∈ attrs, Plain a ∧ ¬ IsConcretize a) →
    ∃ dg dg', Minus (ClosureParam s.generics) s.generics.params dg.params ∧
      Minus (ClosurePred s.generics) (s.generics.preds.getD []) (dg.preds.getD []) ∧
      MeansSameGenerics levels dg dg' ∧
      (∀ p ∈ x.callGenerics.params, p ∈ dg'.params) ∧ (∀ p, .ty p ∈ dg'.params → .ty p ∈ x.callGenerics.params) ∧
      ((∃ p, .ty p ∈ dg'.params) → x.callGenerics.preds = dg'.preds)

/-- C49 for a function of visibility `v`: the function is visible where it was, and so is the code `levels` modules
further down. -/
def ScopeKept (levels : Nat) (v : Vis) (x : MockFn) : Prop :=
  ∀ at_ s, scope at_ v = some s → (∀ i p, v ≠ .restricted i ("self" :: p)) →
    scope at_ x.callVis = some s ∧ ∀ ms, ms.length = levels → scope (at_ ++ ms) x.privmodVis = some s

/-- C61 for a function with signature `s`: if it is marked with `concretize`, its expectations take trait objects. -/
def Concretized (levels : Nat) (attrs : List Attr) (s : Sig) (x : MockFn) : Prop :=
  (∃ a ∈ attrs, IsConcretize a) →
    (∀ n bs, BoundsOf s.generics n bs → FnMutPlain bs) → (∀ n bs, BoundsOf s.generics n bs → ∀ c ∈ bs, NotMaybe c) →
    (∀ as p n, .typed as p (.ref none false (.name n)) ∈ s.inputs → ∀ c, Has s.generics n c → ¬ FnMutBound c) →
    x.isMethodGeneric = false ∧
    ∃ B : Ident → Option (List Bound),
      (∀ n bs, B n = some bs → BoundsOf s.generics n bs ∧ bs ≠ []) ∧
      (∀ n, B n = none → ∀ bs, BoundsOf s.generics n bs → bs = []) ∧
      (∃ vals, Minus (fun a => ¬ IsValueArg a) s.inputs vals ∧ x.args.length = x.callExprs.length ∧
        Pointwise (ArgConcrete s.generics B levels) vals (x.args.zip x.callExprs)) ∧
      Pointwise (SigArg B) s.inputs x.sig.inputs ∧
      x.sig.ident = s.ident ∧ x.sig.generics = s.generics ∧ x.sig.output = s.output

theorem any_concretize {l : List Attr} : (∀ a ∈ l, Plain a ∧ ¬ IsConcretize a) → l.any isConcretize = false := by
  intro h
  rw [List.any_eq_false]
  intro a ha k
  exact (h a ha).2 ((isConcretize_iff a (h a ha).1).1 k)

theorem any_concretize' {l : List Attr} : (∃ a ∈ l, IsConcretize a) → l.any isConcretize = true := by
  rintro ⟨a, ha, k⟩
  exact List.any_eq_true.2 ⟨a, ha, isConcretize_of a k⟩

theorem paths_kept {b : Builder} {x : MockFn} {attrs : List Attr} (h : build b = .ok x)
    (hc : b.concretize = attrs.any isConcretize) : PathsKept b.levels attrs b.sig x where
  output := fun t ht hs => C41_output_partial b x h t ht hs
  args := fun ha => C41_args_partial b x (hc.trans (any_concretize ha)) h
  generics := fun ha => C41_call_generics_partial b x (hc.trans (any_concretize ha)) h

theorem scope_kept {b : Builder} {x : MockFn} (h : build b = .ok x) (hc : b.callLevels = some 0) :
    ScopeKept b.levels b.vis x := by
  intro at_ s hv hs
  refine ⟨?_, fun ms e => (C49_build_partial b x h at_ s hv hs ms).2 e⟩
  have := (C49_build_partial b x h at_ s hv hs []).1 (by rw [hc]; rfl)
  rwa [List.append_nil] at this

theorem concretized {b : Builder} {x : MockFn} {attrs : List Attr} (h : build b = .ok x)
    (hc : b.concretize = attrs.any isConcretize) : Concretized b.levels attrs b.sig x := by
  intro ha h1 h2 h3
  have hc := hc.trans (any_concretize' ha)
  exact ⟨(C61_one_store b x hc h).1, C61_concretize_partial b x hc h h1 h2 h3⟩

/-! ## Structs -/

theorem methOf_placed {g : Generics} {t : Option Ident} {v : Vis} {f : ImplFn} {x : Meth}
    (h : methOf g t v f.attrs f.qual f.sig = .ok x) :
    PathsKept 2 f.attrs f.sig x.fn ∧ ScopeKept 2 v x.fn ∧ Concretized 2 f.attrs f.sig x.fn := by
  simp only [methOf, gen_bind_ok, gen_pure_ok] at h
  obtain ⟨fn, hf, rfl⟩ := h
  exact ⟨paths_kept hf rfl, scope_kept hf rfl, concretized hf rfl⟩

/-- There are a module `outer` and in it the modules `inner`. -/
def HasMods (items : List Item) (outer : Ident) (inner : List Ident) : Prop :=
  ∃ a l, .mod a outer l ∈ items ∧ l.map WithAttrs.val = inner

/-- `R` holds for each method of the struct and the function built for it, and for each method of a trait. -/
def ForMethods (R : Vis → ImplFn → MockFn → Prop) (m : MockableStruct) (mi : MockItemStruct) : Prop :=
  Pointwise (fun f x => R f.vis f x.fn) m.methods mi.methods ∧
  Pointwise (fun i t => Pointwise (fun f x => R m.vis f x.fn) (methodsOf i.items) t.methods) m.impls mi.traits

theorem for_methods {R : Vis → ImplFn → MockFn → Prop} {hash : List Args → Nat} {m : MockableStruct}
    {mi : MockItemStruct} (h : mockItemStruct hash m = .ok mi)
    (hR : ∀ t v f x, methOf m.generics t v f.attrs f.qual f.sig = .ok x → R v f x.fn) : ForMethods R m mi := by
  simp only [mockItemStruct, gen_bind_ok, gen_pure_ok] at h
  obtain ⟨ms, h1, ts, h2, rfl⟩ := h
  refine ⟨mapM_pointwise (fun f _ x k => hR _ _ _ _ k) h1, mapM_pointwise (fun i _ t k => ?_) h2⟩
  simp only [mockTrait] at k
  split at k
  · simp at k
  · simp only [gen_bind_ok, gen_pure_ok] at k
    obtain ⟨_, -, l, hl, rfl⟩ := k
    exact pointwise_imp (fun f x k => hR _ _ _ _ k) (traitMethods_pointwise hl)

theorem inner_mods {g : Generics} {t : ImplFn → Option Ident} {v : ImplFn → Vis} {l : List ImplFn} {xs : List Meth}
    (h : Pointwise (fun f x => methOf g (t f) (v f) f.attrs f.qual f.sig = .ok x) l xs) :
    (xs.map Meth.privMod).map WithAttrs.val = l.map fun f => "__" ++ f.sig.ident := by
  induction h with
  | nil => rfl
  | cons h _ ih =>
    obtain ⟨-, -, e, -⟩ := methOf_ok h
    rw [List.map_cons, List.map_cons, List.map_cons, ih]
    simp only [Meth.privMod, Meth.innerMod, e]

/-- The modules of a mock struct: for each method the second one of two, one in the other.  For the methods of a
trait that is implemented several times the modules are those of one of the `impl`s. -/
theorem struct_mods {hash : List Args → Nat} {m : MockableStruct} {mi : MockItemStruct} {items : List Item}
    (h : mockItemStruct hash m = .ok mi) (hi : mi.items = .ok items) :
    HasMods items ("__mock_" ++ m.name) (m.methods.map fun f => "__" ++ f.sig.ident) ∧
    ∀ i ∈ m.impls, ∃ j ∈ m.impls, j.trait = i.trait ∧
      ∃ n, HasMods items n ((methodsOf j.items).map fun f => "__" ++ f.sig.ident) := by
  obtain ⟨L⟩ := layout hi
  simp only [mockItemStruct, gen_bind_ok, gen_pure_ok] at h
  obtain ⟨ms, h1, ts, h2, rfl⟩ := h
  refine ⟨⟨_, _, L.mod, inner_mods (t := fun _ => none) (v := fun f => f.vis) (mapM_pointwise (fun f _ x k => k) h1)⟩, ?_⟩
  intro i hi
  obtain ⟨t, ht, et⟩ := mapM_mem h2 hi
  rcases uniqueTraits_rep (hs := []) ht with k | ⟨u, hu, ek⟩
  · cases k
  · obtain ⟨j, hj, ej⟩ := mapM_mem' h2 (uniqueTraits_sub hu)
    refine ⟨j, hj, ?_, ?_⟩
    · rw [(mockTrait_ok et).1, (mockTrait_ok ej).1, show u.path = t.path from congrArg Prod.fst ek]
    · have I := L.subs _ (List.mem_map.2 ⟨u, hu, rfl⟩)
      refine ⟨_, _, _, I.mod, ?_⟩
      simp only [mockTrait] at ej
      split at ej
      · simp at ej
      · simp only [gen_bind_ok, gen_pure_ok] at ej
        obtain ⟨_, -, l, hl, rfl⟩ := ej
        exact inner_mods (t := fun _ => some _) (v := fun _ => m.vis) (traitMethods_pointwise hl)

/-- C41 for mock structs: the code for the expectations of a method is in a module in a module; types in it mean
what they mean at the struct.  With the reservations of `C41_relative_paths_partial`. -/
theorem C41_struct_partial (hash : List Args → Nat) (m : MockableStruct) (mi : MockItemStruct) (items : List Item)
    (h : mockItemStruct hash m = .ok mi) (hi : mi.items = .ok items) :
    HasMods items ("__mock_" ++ m.name) (m.methods.map fun f => "__" ++ f.sig.ident) ∧
    (∀ i ∈ m.impls, ∃ j ∈ m.impls, j.trait = i.trait ∧
      ∃ n, HasMods items n ((methodsOf j.items).map fun f => "__" ++ f.sig.ident)) ∧
    ForMethods (fun _ f x => PathsKept 2 f.attrs f.sig x) m mi :=
  ⟨(struct_mods h hi).1, (struct_mods h hi).2, for_methods h fun _ _ _ _ k => (methOf_placed k).1⟩

/-- C49 for mock structs: methods keep their visibility, those of traits have that of the struct; the code for
expectations, in a module in a module, is visible from the same places. -/
theorem C49_modules_partial (hash : List Args → Nat) (m : MockableStruct) (mi : MockItemStruct)
    (h : mockItemStruct hash m = .ok mi) : ForMethods (fun v _ x => ScopeKept 2 v x) m mi :=
  for_methods h fun _ _ _ _ k => (methOf_placed k).2.1

/-- C61 for mock structs: methods that are marked with `concretize` take trait objects. -/
theorem C61_struct_partial (hash : List Args → Nat) (m : MockableStruct) (mi : MockItemStruct)
    (h : mockItemStruct hash m = .ok mi) : ForMethods (fun _ f x => Concretized 2 f.attrs f.sig x) m mi :=
  for_methods h fun _ _ _ _ k => (methOf_placed k).2.2

/-- There is a function `n` in an `impl` of the type `s`, the head of which has `R`. -/
def HasHead (items : List Item) (s : Ident) (t : Option TraitPath) (n : Ident) (R : FnHead → Prop) : Prop :=
  ∃ hd fns g, .impl hd s t fns ∈ items ∧ g ∈ fns ∧ g.name = n ∧ R g.head

/-- There is a module `n` in another one, the attributes of which have `R`. -/
def HasInner (items : List Item) (n : Ident) (R : List Attr → Prop) : Prop :=
  ∃ a outer l w, .mod a outer l ∈ items ∧ w ∈ l ∧ w.val = n ∧ R w.attrs

/-- A function of a type that only C code can call by its name. -/
def Unmangled (q : Qual) : Prop := ∃ abi, q.abi = some abi ∧ abi ≠ some "Rust"

theorem noMangle_iff (q : Qual) : q.noMangle = true ↔ Unmangled q := by
  rw [Qual.noMangle, Unmangled]
  split <;> rename_i h <;> simp [h]

theorem meth_heads {g : Generics} {t : Option Ident} {v : Vis} {f : ImplFn} {x : Meth} {md : Ident}
    (h : methOf g t v f.attrs f.qual f.sig = .ok x) (hp : ∀ a ∈ f.attrs, Plain a) :
    (Without (Stripped true true true) f.attrs (x.call md).head.attrs ∧
      ((x.call md).head.noMangle = true ↔ Unmangled f.qual)) ∧
    Without (Stripped false true false) f.attrs (x.expect md).head.attrs ∧
    Without (Stripped false true false) f.attrs (x.contextFn md).head.attrs ∧
    Without (Stripped false true false) f.attrs x.privMod.attrs := by
  obtain ⟨n1, n2, n3, n4, -⟩ := methOf_sig h
  have k : Without (Stripped false true false) f.attrs (noDoc x.attrs) := by
    rw [n1]; exact C47_filter_partial { doc := false } _ hp
  refine ⟨⟨?_, ?_⟩, k, k, k⟩
  · show Without _ _ (({ mustUse := true } : AttrFormatter).format x.attrs)
    rw [n1]; exact C47_filter_partial { mustUse := true } _ hp
  · show x.qual.noMangle = true ↔ _
    rw [n3, noMangle_iff]

/-- C47 for mock structs: a mocked method has its attributes without those that are to be stripped, the function
that sets its expectations and its module have neither documentation nor `must_use`.  The name of the method is
kept for C code iff it has a foreign ABI. -/
theorem C47_struct_partial (hash : List Args → Nat) (m : MockableStruct) (items : List Item)
    (h : expandStruct hash m = .ok items) (f : ImplFn) (hf : f ∈ m.methods) (hp : ∀ a ∈ f.attrs, Plain a) :
    HasHead items m.name none f.sig.ident (fun d => Without (Stripped true true true) f.attrs d.attrs ∧
      (d.noMangle = true ↔ Unmangled f.qual)) ∧
    (∃ n, SetterName f.sig n ∧ HasHead items m.name none n fun d =>
      Without (Stripped false true false) f.attrs d.attrs) ∧
    HasInner items ("__" ++ f.sig.ident) (Without (Stripped false true false) f.attrs) := by
  obtain ⟨mi, h1, ⟨L⟩⟩ := expand_steps h
  simp only [mockItemStruct, gen_bind_ok, gen_pure_ok] at h1
  obtain ⟨ms, h1, ts, h2, rfl⟩ := h1
  obtain ⟨x, hx, e⟩ := mapM_mem h1 hf
  obtain ⟨-, e2, e3, e4⟩ := methOf_ok e
  obtain ⟨k1, k2, k3, k4⟩ := meth_heads (md := "__mock_" ++ m.name) e hp
  refine ⟨⟨_, _, _, L.impl, ?_, e3, k1⟩, ?_, ⟨_, _, _, x.privMod, L.mod, List.mem_map.2 ⟨x, hx, rfl⟩, ?_, k4⟩⟩
  · simp only [mainFns, List.mem_append, List.mem_map]
    exact .inl (.inl (.inl (.inl ⟨x, hx, rfl⟩)))
  · cases hst : x.isStatic with
    | true =>
      refine ⟨f.sig.ident ++ "_context", ⟨fun k => absurd k (e4.1 hst), fun _ => rfl⟩, _, _,
        x.contextFn ("__mock_" ++ m.name), L.impl, ?_, ?_, k3⟩
      · simp only [mainFns, List.mem_append, List.mem_map, List.mem_filter]
        exact .inl (.inl (.inl (.inr ⟨x, ⟨hx, hst⟩, rfl⟩)))
      · show x.name ++ "_context" = _
        rw [e3]
    | false =>
      refine ⟨"expect_" ++ f.sig.ident, ⟨fun _ => rfl, fun k => ?_⟩, _, _,
        x.expect ("__mock_" ++ m.name), L.impl, ?_, ?_, k2⟩
      · rw [e4.2 k] at hst; cases hst
      · simp only [mainFns, List.mem_append, List.mem_map, List.mem_filter]
        exact .inl (.inl (.inr ⟨x, ⟨hx, by rw [hst]; rfl⟩, rfl⟩))
      · show "expect_" ++ x.name = _
        rw [e3]
  · show "__" ++ x.name = _
    rw [e3]

/-- C47 for the traits of mock structs: the same for their methods; the attributes of the `impl` are kept except
`must_use`, on the `impl` for the expectations there are neither documentation nor `async_trait`. -/
theorem C47_trait_partial (hash : List Args → Nat) (m : MockableStruct) (items : List Item)
    (h : expandStruct hash m = .ok items) (i : ItemImpl) (hi : i ∈ m.impls) (hty : IsPathTo m.name i.selfTy)
    (hpi : ∀ a ∈ i.attrs, Plain a) :
    (∃ hd p fns, .impl hd m.name (some p) fns ∈ items ∧ i.trait = some p ∧
      Without (Stripped true true false) i.attrs hd.attrs) ∧
    (∃ hd fns, .impl hd m.name none fns ∈ items ∧ hd.isUnsafe = false ∧
      Without (Stripped false false false) i.attrs hd.attrs ∧
      ∀ f ∈ methodsOf i.items, ∃ n, SetterName f.sig n ∧ ∃ g ∈ fns, g.name = n) ∧
    ∀ f ∈ methodsOf i.items, (∀ a ∈ f.attrs, Plain a) →
      HasHead items m.name i.trait f.sig.ident (fun d => Without (Stripped true true true) f.attrs d.attrs ∧
        (d.noMangle = true ↔ Unmangled f.qual)) ∧
      ∃ n, SetterName f.sig n ∧ HasHead items m.name none n fun d =>
        Without (Stripped false true false) f.attrs d.attrs := by
  obtain ⟨mi, h1, ⟨L⟩⟩ := expand_steps h
  simp only [mockItemStruct, gen_bind_ok, gen_pure_ok] at h1
  obtain ⟨ms, h1, ts, h2, rfl⟩ := h1
  obtain ⟨t, ht, et⟩ := mapM_mem h2 hi
  obtain ⟨a1, a2, -, a4, -, a5⟩ := mockTrait_ok et
  have hn : t.selfPath.id = m.name := selfPath_name a5 hty
  have i1 := L.traits t ht _ List.mem_cons_self
  have i2 := L.traits t ht _ (List.mem_cons_of_mem _ List.mem_cons_self)
  rw [hn] at i1 i2
  have set : ∀ f ∈ methodsOf i.items, ∃ n g, SetterName f.sig n ∧
      g ∈ (t.methods.filter (!·.isStatic)).map (·.expect ("__mock_" ++ m.name ++ "_" ++ t.ssName)) ++
        (t.methods.filter (·.isStatic)).map (·.contextFn ("__mock_" ++ m.name ++ "_" ++ t.ssName)) ∧
      g.name = n ∧ ((∀ a ∈ f.attrs, Plain a) → Without (Stripped false true false) f.attrs g.head.attrs) := by
    intro f hf
    obtain ⟨y, hy, e⟩ := List.mem_filterMap.1 hf
    have hy : .fn f ∈ i.items := by
      split at e
      · cases e; exact hy
      · cases e
    obtain ⟨x, hx, e⟩ := a4 f hy
    obtain ⟨-, e2, e3, e4⟩ := methOf_ok e
    cases hst : x.isStatic with
    | true =>
      refine ⟨f.sig.ident ++ "_context", x.contextFn ("__mock_" ++ m.name ++ "_" ++ t.ssName),
        ⟨fun k => absurd k (e4.1 hst), fun _ => rfl⟩, ?_, ?_, fun hp => (meth_heads e hp).2.2.1⟩
      · simp only [List.mem_append, List.mem_map, List.mem_filter]
        exact .inr ⟨x, ⟨hx, hst⟩, rfl⟩
      · show x.name ++ "_context" = _
        rw [e3]
    | false =>
      refine ⟨"expect_" ++ f.sig.ident, x.expect ("__mock_" ++ m.name ++ "_" ++ t.ssName),
        ⟨fun _ => rfl, fun k => ?_⟩, ?_, ?_, fun hp => (meth_heads e hp).2.1⟩
      · rw [e4.2 k] at hst; cases hst
      · simp only [List.mem_append, List.mem_map, List.mem_filter]
        exact .inl ⟨x, ⟨hx, by rw [hst]; rfl⟩, rfl⟩
      · show "expect_" ++ x.name = _
        rw [e3]
  refine ⟨⟨_, _, _, i1, a1, ?_⟩, ⟨_, _, i2, rfl, ?_, ?_⟩, ?_⟩
  · show Without _ _ (({} : AttrFormatter).format t.attrs)
    rw [a2]; exact C47_filter_partial {} _ hpi
  · show Without _ _ (({ asyncTrait := false, doc := false } : AttrFormatter).format t.attrs)
    rw [a2]; exact C47_filter_partial { asyncTrait := false, doc := false } _ hpi
  · intro f hf
    obtain ⟨n, g, k1, k2, k3, -⟩ := set f hf
    exact ⟨n, k1, g, k2, k3⟩
  · intro f hf hp
    obtain ⟨n, g, k1, k2, k3, k4⟩ := set f hf
    refine ⟨?_, n, k1, _, _, g, i2, k2, k3, k4 hp⟩
    obtain ⟨y, hy, e⟩ := List.mem_filterMap.1 hf
    have hy : .fn f ∈ i.items := by
      split at e
      · cases e; exact hy
      · cases e
    obtain ⟨x, hx, e⟩ := a4 f hy
    rw [a1]
    exact ⟨_, _, _, i1, List.mem_map.2 ⟨x, hx, rfl⟩, (methOf_ok e).2.2.1, (meth_heads e hp).1⟩

/-- C47 for the struct itself: the attributes of the definition without those that are to be stripped and without
`async_trait`; it is in no `unsafe impl`. -/
theorem C47_definition_partial (hash : List Args → Nat) (m : MockableStruct) (items : List Item)
    (h : expandStruct hash m = .ok items) (hp : ∀ a ∈ m.attrs, Plain a) :
    (∃ hd fields, .struct hd m.name fields ∈ items ∧ Without (Stripped true false true) m.attrs hd.attrs) ∧
    ∀ hd n fns, .impl hd n none fns ∈ items → hd.isUnsafe = false := by
  simp only [expandStruct, gen_bind_ok] at h
  obtain ⟨mi, h1, h⟩ := h
  obtain ⟨L⟩ := layout h
  have ea : mi.attrs = m.attrs ∧ mi.name = m.name := by
    simp only [mockItemStruct, gen_bind_ok, gen_pure_ok] at h1
    obtain ⟨ms, h1, ts, h2, rfl⟩ := h1
    exact ⟨rfl, rfl⟩
  refine ⟨⟨_, _, ea.2 ▸ L.struct, ?_⟩, ?_⟩
  · show Without _ _ (({ asyncTrait := false, mustUse := true } : AttrFormatter).format mi.attrs)
    rw [ea.1]
    exact C47_filter_partial { asyncTrait := false, mustUse := true } _ hp
  · intro hd n fns hm
    simp only [MockItemStruct.items, gen_bind_ok, gen_pure_ok] at h
    obtain ⟨ph, -, subs, hsubs, rfl⟩ := h
    simp only [List.mem_append, List.mem_cons, List.not_mem_nil, or_false, reduceCtorEq, false_or, false_and,
      MockItemStruct.debugImpl, List.mem_flatMap, List.mem_flatten, MockTrait.implItems, Item.impl.injEq] at hm
    rcases hm with ((hm | ⟨l, hl, hm⟩) | ⟨rfl, -⟩) | ⟨t, -, hm⟩
    · split at hm
      · simp at hm
      · cases hm
    · obtain ⟨s, -, e⟩ := mapM_mem' hsubs hl
      simp only [SubStruct.items, gen_bind_ok, gen_pure_ok] at e
      obtain ⟨ph', -, rfl⟩ := e
      simp only [List.mem_cons, List.not_mem_nil, or_false, reduceCtorEq, false_or, Item.impl.injEq] at hm
      rw [hm.1]
    · rfl
    · rcases hm with ⟨_, _, ⟨⟩, _⟩ | ⟨rfl, _⟩
      rfl

/-! ## Modules -/

theorem modMeth_placed {parent : Ident} {f : ModFn} {x : ModMeth} (h : modMeth parent f = .ok x) :
    PathsKept 1 f.attrs f.sig x.meth.fn ∧ ScopeKept 1 f.vis x.meth.fn ∧ Concretized 1 f.attrs f.sig x.meth.fn := by
  simp only [modMeth, gen_bind_ok, gen_pure_ok] at h
  obtain ⟨fn, hf, rfl⟩ := h
  exact ⟨paths_kept hf rfl, scope_kept hf rfl, concretized hf rfl⟩

/-- Each function of a module is built. -/
theorem content_built {parent : Ident} {f : ModFn} : ∀ {l : List ModItem} {cs : List ModContent},
    modContent parent l = .ok cs → Writes l f → ∃ f' x, .fn x ∈ cs ∧ modMeth parent f' = .ok x ∧
      f'.attrs = f.attrs ∧ f'.sig = f.sig ∧ f'.vis = f.vis
  | l, cs, h, .foreign a abi items _ hi hf => by
    obtain ⟨x, hx, e⟩ := content_call hf h hi
    exact ⟨_, x, hx, e, rfl, rfl, rfl⟩
  | .externCrate _ :: l, cs, h, .fn _ hf => content_built (l := l) h (.fn f (by simpa using hf))
  | .impl _ :: l, cs, h, .fn _ hf => content_built (l := l) h (.fn f (by simpa using hf))
  | .copied _ _ :: l, cs, h, .fn _ hf => by
    simp only [modContent, gen_bind_ok, gen_pure_ok] at h
    obtain ⟨r, hr, rfl⟩ := h
    obtain ⟨f', x, hx, k⟩ := content_built hr (.fn f (by simpa using hf))
    exact ⟨f', x, List.mem_cons_of_mem _ hx, k⟩
  | .fn g :: l, cs, h, .fn _ hf => by
    simp only [modContent, gen_bind_ok, gen_pure_ok] at h
    obtain ⟨x, hx, r, hr, rfl⟩ := h
    rcases List.mem_cons.1 hf with e | hf
    · cases e
      exact ⟨f, x, List.mem_cons_self, hx, rfl, rfl, rfl⟩
    · obtain ⟨f', x, hx, k⟩ := content_built hr (.fn f hf)
      exact ⟨f', x, List.mem_cons_of_mem _ hx, k⟩
  | .foreignMod _ _ _ :: l, cs, h, .fn _ hf => by
    simp only [modContent, gen_bind_ok, gen_pure_ok] at h
    obtain ⟨fs, -, r, hr, rfl⟩ := h
    obtain ⟨f', x, hx, k⟩ := content_built hr (.fn f (by simpa using hf))
    exact ⟨f', x, List.mem_append_right _ hx, k⟩
  | .nested _ :: _, cs, h, .fn _ hf => by simp [modContent] at h
  | .other _ :: _, cs, h, .fn _ hf => by simp [modContent] at h

/-- `R` holds for each function of the module and the function built for it, which is in the module `__name`. -/
def ForFunctions (R : ModFn → MockFn → Prop) (m : MockableModule) (mi : MockItemModule) : Prop :=
  ∀ f, Writes m.content f → ∃ x, .fn x ∈ mi.content ∧ x.meth.name = f.sig.ident ∧
    (∃ a, .mod a ("__" ++ f.sig.ident) ∈ mi.out.items) ∧ R f x.meth.fn

theorem modMeth_name {parent : Ident} {f : ModFn} {x : ModMeth} (h : modMeth parent f = .ok x) :
    x.meth.name = f.sig.ident := by
  simp only [modMeth, gen_bind_ok, gen_pure_ok] at h
  obtain ⟨fn, hf, rfl⟩ := h
  obtain ⟨s⟩ := build_steps hf
  have hp := s.prep
  unfold prepare at hp
  split at hp
  · simp only [concretizeArgs, gen_bind_ok, gen_pure_ok, Prod.mk.injEq] at hp
    obtain ⟨_, -, _, -, _, -, _, -, _, -, -, -, -, h⟩ := hp
    simp only [Meth.name, ← h]
  · simp only [gen_bind_ok, gen_pure_ok, Prod.mk.injEq] at hp
    obtain ⟨_, -, -, -, -, h⟩ := hp
    simp only [Meth.name, ← h]

theorem for_functions {R : ModFn → MockFn → Prop} {m : MockableModule} {mi : MockItemModule}
    (h : mockItemModule m = .ok mi)
    (hR : ∀ f f' x, f'.attrs = f.attrs → f'.sig = f.sig → f'.vis = f.vis → modMeth m.mockIdent f' = .ok x →
      R f x.meth.fn) : ForFunctions R m mi := by
  simp only [mockItemModule, gen_bind_ok, gen_pure_ok] at h
  obtain ⟨cs, hc, rfl⟩ := h
  intro f hf
  obtain ⟨f', x, hx, e, e1, e2, e3⟩ := content_built hc hf
  have hn : x.meth.name = f.sig.ident := by rw [modMeth_name e, e2]
  refine ⟨x, hx, hn, ⟨noDoc x.meth.attrs, ?_⟩, hR f f' x e1 e2 e3 e⟩
  rw [← hn]
  refine List.mem_append_left _ (List.mem_flatMap.2 ⟨_, hx, ?_⟩)
  exact List.mem_cons_self

/-- C41 for mock modules: the code for the expectations of a function is in a module of the mock module; types in it
mean what they mean in the mock module.  With the reservations of `C41_relative_paths_partial`. -/
theorem C41_module_partial (m : MockableModule) (mi : MockItemModule) (h : mockItemModule m = .ok mi) :
    ForFunctions (fun f x => PathsKept 1 f.attrs f.sig x) m mi :=
  for_functions h fun f f' x e1 e2 _ k => by rw [← e1, ← e2]; exact (modMeth_placed k).1

/-- C49 for mock modules: a function keeps its visibility, the code for its expectations, one module further down,
is visible from the same places. -/
theorem C49_module_partial (m : MockableModule) (mi : MockItemModule) (h : mockItemModule m = .ok mi) :
    ForFunctions (fun f x => ScopeKept 1 f.vis x) m mi :=
  for_functions h fun f f' x _ _ e3 k => by rw [← e3]; exact (modMeth_placed k).2.1

/-- C61 for mock modules: functions that are marked with `concretize` take trait objects. -/
theorem C61_module_partial (m : MockableModule) (mi : MockItemModule) (h : mockItemModule m = .ok mi) :
    ForFunctions (fun f x => Concretized 1 f.attrs f.sig x) m mi :=
  for_functions h fun f f' x e1 e2 _ k => by rw [← e1, ← e2]; exact (modMeth_placed k).2.2

/-- C47 for mock modules: the mock of a function has its attributes without those that are to be stripped. -/
theorem C47_module_partial (m : ItemMod) (o : OutMod) (h : expandModule m = .ok o) (l : List ModItem)
    (hl : m.content = some l) (f : ModFn) (hf : Writes l f) (hs : ¬ IsMethod f.sig.inputs)
    (hp : ∀ a ∈ f.attrs, Plain a) :
    ∃ attrs noMangle v q s md, .call attrs noMangle v q s md ∈ o.items ∧ s.ident = f.sig.ident ∧
      Without (Stripped true true true) f.attrs attrs := by
  obtain ⟨l', cs, h1, h2, -, -, -, hit⟩ := expand_module h hl
  have hw : ∃ g, Writes l' g ∧ g.attrs = f.attrs ∧ g.sig.ident = f.sig.ident ∧ ¬ IsMethod g.sig.inputs := by
    cases hf with
    | fn _ hf =>
      obtain ⟨y, hy, e⟩ := mapM_mem h1 hf
      simp only [mockableItem, mockableFn, gen_bind_ok, gen_pure_ok] at e
      obtain ⟨f', ⟨inputs, hi, rfl⟩, rfl⟩ := e
      exact ⟨_, .fn _ hy, rfl, rfl, fun h => hs ((demutify_static hi).1 h)⟩
    | foreign a abi items _ hi hf =>
      obtain ⟨y, hy, e⟩ := mapM_mem h1 hi
      rw [mockableItem_other e (by simp)] at hy
      exact ⟨f, .foreign a abi items f hy hf, rfl, rfl, hs⟩
  obtain ⟨g, hg, e1, e2, e3⟩ := hw
  obtain ⟨f', x, hx, e, k1, k2, -⟩ := content_built h2 hg
  obtain ⟨n1, -, n3, -⟩ := modMeth_ok e (by rw [k2]; exact e3)
  refine ⟨({ mustUse := true } : AttrFormatter).format x.meth.attrs, x.qual.noMangle, x.meth.fn.callVis, x.qual,
    x.meth.fn.sig, x.meth.innerMod, ?_, ?_, ?_⟩
  · rw [hit]
    refine List.mem_append_left _ (List.mem_flatMap.2 ⟨_, hx, ?_⟩)
    simp [ModContent.items, ModMeth.call, n3]
  · show x.meth.name = _
    rw [modMeth_name e, k2, e2]
  · rw [n1, k1, e1]
    exact C47_filter_partial { mustUse := true } _ hp

/-! ## Examples -/

/-- `#[must_use] pub(super) fn foo(x: super::X) -> super::Y`, with `&self` before `x` or not. -/
def exSuperFn (l : List FnArg) : Sig where
  ident := "foo"
  inputs := l ++ [.typed [] (.ident false false "x" false) (.path false [.of "super", .of "X"])]
  output := .ty (.path false [.of "super", .of "Y"])

/-- `fn bar<T: A>(x: T)`, with `&self` or not. -/
def exConcrFn (l : List FnArg) : Sig where
  ident := "bar"
  generics := { angle := true, params := [.ty { id := "T", bounds := [tr "A"] }] }
  inputs := l ++ [.typed [] (.ident false false "x" false) (.name "T")]

/-- `#[must_use]`. -/
def exMustUse : Attr := .plain [] "must_use" []

/-- `#[mockall::concretize]`. -/
def exMarked : Attr := .plain ["mockall"] "concretize" []

/-- The two as methods of a struct, and of a trait of it. -/
def exPlaced : MockableStruct where
  name := "MockFoo"
  methods := [{ attrs := [exMustUse], vis := .restricted false ["super"], sig := exSuperFn [selfArg] },
    { attrs := [exMustUse, exMarked], sig := exConcrFn [selfArg] }]
  impls := [{ trait := some ⟨false, [.of "Tr"]⟩, selfTy := .path false [.of "MockFoo"]
              items := [.fn { attrs := [exMustUse], sig := exSuperFn [selfArg] }] }]

/-- What the expectations take and return. -/
def shownFn (x : MockFn) : List Ty × Ty × Vis := (x.args.map BArg.ty, x.output, x.privmodVis)

/-- C41, C49 and C61 apply to it: there are `super`, a restricted visibility, and `concretize` among other
attributes. -/
theorem C41_struct_inhabited : ∃ mi items, mockItemStruct (fun _ => 0) exPlaced = .ok mi ∧ mi.items = .ok items ∧
    mi.methods.map (fun x => shownFn x.fn) =
      [([.path false [.of "super", .of "super", .of "super", .of "X"]],
        .path false [.of "super", .of "super", .of "super", .of "Y"], .restricted true ["super", "super", "super"]),
       ([.ref none false (dynTy [tr "A"])], .tuple [], .restricted true ["super", "super"])] := by
  obtain ⟨mi, h1, h2⟩ := yields (x := mockItemStruct (fun _ => 0) exPlaced)
    (f := fun mi => (mi.methods.map fun x => shownFn x.fn, mi.items.toOption.isSome))
    (b := ([([.path false [.of "super", .of "super", .of "super", .of "X"]],
        .path false [.of "super", .of "super", .of "super", .of "Y"], .restricted true ["super", "super", "super"]),
       ([.ref none false (dynTy [tr "A"])], .tuple [], .restricted true ["super", "super"])], true)) (by decide +kernel)
  simp only [Prod.mk.injEq] at h2
  cases hi : mi.items with
  | error e => rw [hi] at h2; cases h2.2
  | ok items => exact ⟨mi, items, h1, hi, h2.1⟩

/-- The two as functions of a module. -/
def exPlacedMod : ItemMod where
  ident := "m"
  content := some [.fn { attrs := [exMustUse], vis := .restricted false ["super"], sig := exSuperFn [] },
    .foreignMod [] (some "C") [.fn { attrs := [exMustUse, exMarked], sig := exConcrFn [] }]]

/-- The functions of a module, and the attributes of their mocks. -/
def shownContent (m : MockItemModule) : List (List Ty × Ty × Vis) × List (List Attr) :=
  (m.content.filterMap (fun | .fn x => some (shownFn x.meth.fn) | _ => none),
   m.out.items.filterMap (fun | .call a _ _ _ _ _ => some a | _ => none))

/-- The same for a module; the functions keep `must_use`. -/
theorem C41_module_inhabited : ∃ m mi, mockableModule exPlacedMod = .ok m ∧ mockItemModule m = .ok mi ∧
    expandModule exPlacedMod = .ok mi.out ∧ shownContent mi =
      ([([.path false [.of "super", .of "super", .of "X"]], .path false [.of "super", .of "super", .of "Y"],
         .restricted true ["super", "super"]),
        ([.ref none false (dynTy [tr "A"])], .tuple [], .restricted true ["super"])],
       [[exMustUse], [exMustUse]]) := by
  obtain ⟨mi, h1, h2⟩ := yields (x := mockableModule exPlacedMod >>= mockItemModule) (f := shownContent)
    (b := ([([.path false [.of "super", .of "super", .of "X"]], .path false [.of "super", .of "super", .of "Y"],
         .restricted true ["super", "super"]),
        ([.ref none false (dynTy [tr "A"])], .tuple [], .restricted true ["super"])],
       [[exMustUse], [exMustUse]])) (by decide +kernel)
  simp only [gen_bind_ok] at h1
  obtain ⟨m, hm, hmi⟩ := h1
  refine ⟨m, mi, hm, hmi, ?_, h2⟩
  simp only [expandModule, gen_bind_ok, gen_pure_ok]
  exact ⟨m, hm, mi, hmi, rfl⟩

end Mockall.Props
