import Verif.Props.DeriveStruct
import Verif.Props.DeriveOwned
import Verif.Props.DeriveVisibility

/-! # C41 and C49 for what is built from a signature -/

namespace Mockall.Props

open Derive Spec

/-! ## Paths -/

theorem addSupers_single {n : Nat} {i : Ident} {s : List Seg} (hi : i ≠ "super")
    (h : (addSupers n s).1 = [.of i]) : s = [.of i] := by
  cases s with
  | nil => simp [addSupers] at h
  | cons a l =>
    rw [addSupers] at h
    split at h
    · rename_i ha
      exfalso
      dsimp only at h
      have : (List.replicate n (Seg.of "super") ++ a :: l).length = 1 := by rw [h]; rfl
      simp only [List.length_append, List.length_replicate, List.length_cons] at this
      obtain rfl : n = 0 := by omega
      simp only [List.replicate_zero, List.nil_append, List.cons.injEq] at h
      rw [h.1] at ha
      exact hi ha
    · exact h

/-- No special owned form (C44) comes out of adjusting paths. -/
theorem special_of {n : Nat} {t t' : Ty} (h : supersuperfy n t = .ok t') (hs : Special t') : Special t := by
  rcases hs with hs | ⟨e, rfl⟩ | ⟨b, rfl⟩
  · left
    have : ∃ i, i ≠ "super" ∧ t' = .name i ∧ Ty.name i ∈ [Ty.name "str", .name "CStr", .name "OsStr", .name "Path"] := by
      simp only [List.mem_cons, List.not_mem_nil, or_false] at hs
      rcases hs with rfl | rfl | rfl | rfl
      · exact ⟨"str", by decide, rfl, by simp⟩
      · exact ⟨"CStr", by decide, rfl, by simp⟩
      · exact ⟨"OsStr", by decide, rfl, by simp⟩
      · exact ⟨"Path", by decide, rfl, by simp⟩
    obtain ⟨i, hi, rfl, hm⟩ := this
    cases t with
    | path l s =>
      simp only [supersuperfy, gen_bind_ok, gen_pure_ok] at h
      obtain ⟨s', hs', k⟩ := h
      injection k with k1 k2
      subst k1
      have : s' = [.of i] := addSupers_single hi k2
      subst this
      match s with
      | [] => simp [supersuperfyLast] at hs'
      | [.mk j a] =>
        simp only [supersuperfyLast, gen_bind_ok, gen_pure_ok] at hs'
        obtain ⟨a', ha, hs'⟩ := hs'
        injection hs' with hs' _
        injection hs' with e1 e2
        subst e1 e2
        cases a with
        | none => exact hm
        | angle l =>
          simp only [supersuperfyArgs, gen_bind_ok, gen_pure_ok] at ha
          obtain ⟨_, _, ha⟩ := ha
          cases ha
        | paren x y =>
          simp only [supersuperfyArgs, gen_bind_ok, gen_pure_ok] at ha
          obtain ⟨_, _, _, _, ha⟩ := ha
          cases ha
      | a :: b :: l =>
        simp only [supersuperfyLast, gen_bind_ok, gen_pure_ok] at hs'
        obtain ⟨l', hl', hs'⟩ := hs'
        injection hs' with _ hs'
        subst hs'
        match b, l, hl' with
        | .mk j a, [], hl' => 
          simp only [supersuperfyLast, gen_bind_ok, gen_pure_ok] at hl'
          obtain ⟨_, _, hl'⟩ := hl'
          cases hl'
        | b, c :: l, hl' =>
          simp only [supersuperfyLast, gen_bind_ok, gen_pure_ok] at hl'
          obtain ⟨_, _, hl'⟩ := hl'
          cases hl'
    | _ =>
      simp only [supersuperfy, gen_bind_ok, gen_pure_ok, gen_throw_ok] at h <;> first
        | (obtain ⟨_, _, k⟩ := h; cases k; done)
        | (obtain ⟨_, _, _, _, k⟩ := h; cases k; done)
        | (cases h; done)
  · cases t <;> simp only [supersuperfy, gen_bind_ok, gen_pure_ok, gen_throw_ok] at h
    all_goals first
      | (obtain ⟨_, _, k⟩ := h; first | (cases k; done) | exact .inr (.inl ⟨_, rfl⟩))
      | (obtain ⟨_, _, _, _, k⟩ := h; cases k; done)
      | (cases h; done)
      | skip
  · cases t <;> simp only [supersuperfy, gen_bind_ok, gen_pure_ok, gen_throw_ok] at h
    all_goals first
      | (obtain ⟨_, _, k⟩ := h; first | (cases k; done) | exact .inr (.inr ⟨_, rfl⟩))
      | (obtain ⟨_, _, _, _, k⟩ := h; cases k; done)
      | (cases h; done)
      | skip

/-- In generated modules, `g'` means what `g` means outside; see `MeansSame`. -/
def MeansSameGenerics (levels : Nat) (g g' : Generics) : Prop :=
  ∀ (P : Place) (gens : List Module), gens.length = levels → (∀ u ∈ Generics.uses g, u.Good gens) →
    denoteGenerics (P.nest gens) g' = denoteGenerics P g

/-- C41: the return type of the expectations means in the generated modules what it means where the function
was declared, if it has no special owned form (C44); with the reservations of `C41_relative_paths_partial`. -/
theorem C41_output_partial (b : Builder) (f : MockFn) (h : build b = .ok f) (t : Ty) (ht : b.sig.output = .ty t)
    (hs : ∀ lt m e, t = .ref lt m e → ¬ Special e) : MeansSame b.levels t f.output := by
  obtain ⟨s⟩ := build_steps h
  have ho := s.out
  rw [ht] at ho
  simp only [buildOutput, gen_bind_ok, gen_pure_ok] at ho
  obtain ⟨t', ht', ho⟩ := ho
  have key : (outputs t').1 = t' := by
    by_cases hr : ∃ lt m e, t' = .ref lt m e ∧ lt ≠ some "static"
    · obtain ⟨lt, m, e, rfl, hl⟩ := hr
      have : ¬ Special e := by
        cases t <;> simp only [supersuperfy, gen_bind_ok, gen_pure_ok, gen_throw_ok] at ht'
        all_goals first
          | (obtain ⟨_, hk, k⟩ := ht'; first | (cases k; done) | (cases k; exact fun hx => hs _ _ _ rfl (special_of hk hx)))
          | (obtain ⟨_, _, _, _, k⟩ := ht'; cases k; done)
          | (cases ht'; done)
      rw [C44_plain_unchanged lt hl m e this]
    · rcases C44_static_unchanged t' (fun lt m e he => Classical.byContradiction fun hn => hr ⟨lt, m, e, he, hn⟩)
        with k | ⟨m, bs, rfl, k⟩
      · rw [k]
      · exfalso
        cases t <;> simp only [supersuperfy, gen_bind_ok, gen_pure_ok, gen_throw_ok] at ht'
        all_goals first
          | (obtain ⟨_, hk, k⟩ := ht'; first | (cases k; done) | (cases k; exact hs _ _ _ rfl (special_of hk (.inr (.inr ⟨_, rfl⟩)))))
          | (obtain ⟨_, _, _, _, k⟩ := ht'; cases k; done)
          | (cases ht'; done)
  rw [ho] at key
  dsimp only at key
  subst key
  rintro P gens hl hg
  rw [← hl] at ht'
  exact C41_relative_paths_partial P gens t _ hg ht'

/-- C41: so do the types of the arguments, once closures are boxed. -/
theorem C41_args_partial (b : Builder) (f : MockFn) (hc : b.concretize = false) (h : build b = .ok f) :
    ∃ vals, Minus (fun a => ¬ IsValueArg a) b.sig.inputs vals ∧
      Pointwise (fun a c => ∃ as p t t', a = .typed as p t ∧ Boxes b.sig.generics t t' ∧
        MeansSame b.levels t' c.ty) vals f.args := by
  obtain ⟨vals, h1, h2, -, -⟩ := C60_args b f hc h
  refine ⟨vals, h1, ?_⟩
  clear h1
  generalize f.args = as at h2 ⊢
  induction h2 with
  | nil => exact .nil
  | cons h _ ih =>
    cases h with
    | mk as p t t' _ _ hb ht => exact .cons ⟨as, p, t, t', rfl, hb, ht⟩ ih

theorem tyParams_mem {g : Generics} {p : TyParam} (h : p ∈ tyParams g) : GParam.ty p ∈ g.params := by
  obtain ⟨q, hq, e⟩ := List.mem_filterMap.1 h
  cases q <;> cases e
  exact hq

theorem mem_tyParams {g : Generics} {p : TyParam} (h : GParam.ty p ∈ g.params) : p ∈ tyParams g :=
  List.mem_filterMap.2 ⟨_, h, rfl⟩

/-- C41: and so do the generic parameters of the expectations, once those of closures are gone. -/
theorem C41_call_generics_partial (b : Builder) (f : MockFn) (hc : b.concretize = false) (h : build b = .ok f) :
    ∃ dg dg', Minus (ClosureParam b.sig.generics) b.sig.generics.params dg.params ∧
      Minus (ClosurePred b.sig.generics) (b.sig.generics.preds.getD []) (dg.preds.getD []) ∧
      MeansSameGenerics b.levels dg dg' ∧
      (∀ p ∈ f.callGenerics.params, p ∈ dg'.params) ∧ (∀ p, .ty p ∈ dg'.params → .ty p ∈ f.callGenerics.params) ∧
      ((∃ p, .ty p ∈ dg'.params) → f.callGenerics.preds = dg'.preds) := by
  obtain ⟨s⟩ := build_steps h
  have hp := s.prep
  simp only [prepare, hc, Bool.false_eq_true, if_false, gen_bind_ok, gen_pure_ok, Prod.mk.injEq] at hp
  obtain ⟨⟨x, y, z⟩, hd, rfl, rfl, -⟩ := hp
  obtain ⟨k1, k2, -⟩ := C50_closures_partial _ _ _ _ _ hd
  refine ⟨s.dg, s.dg', k1, k2, ?_, ?_⟩
  · rintro P gens hl hg
    have hh := s.gens
    rw [← hl] at hh
    exact C41_generics_partial P gens _ _ hg hh
  · cases ha : s.dg'.angle with
    | false =>
      have := C45_no_params s.dg' s.inputs (.ty f.ownedOutput) ha
      rw [s.mgen] at this
      injection this with this
      injection this with this _
      rw [this]
      exact ⟨fun _ h => h, fun _ h => h, fun _ => rfl⟩
    | true =>
      obtain ⟨e1, e2, -⟩ := C45_split_partial _ _ _ _ _ _ ha s.mgen
      rw [e1, e2]
      refine ⟨?_, ?_, ?_⟩
      · intro p hp
        obtain ⟨q, hq, rfl⟩ := List.mem_map.1 hp
        exact tyParams_mem hq
      · intro p hp
        exact List.mem_map.2 ⟨p, mem_tyParams hp, rfl⟩
      · rintro ⟨p, hp⟩
        rw [if_neg]
        intro e
        have := mem_tyParams hp
        rw [e] at this
        cases this

/-! ## Visibility -/

/-- C49: the functions of the mock can be used where the mocked one can, `callLevels` modules further down
(none, for methods), and so can the generated modules. -/
theorem C49_build_partial (b : Builder) (f : MockFn) (h : build b = .ok f) (at_ : List Ident) (s : Scope)
    (hv : scope at_ b.vis = some s) (hs : ∀ i p, b.vis ≠ .restricted i ("self" :: p)) (ms : List Ident) :
    (ms.length = b.callLevels.getD b.levels → scope (at_ ++ ms) f.callVis = some s) ∧
    (ms.length = b.levels → scope (at_ ++ ms) f.privmodVis = some s) := by
  obtain ⟨k⟩ := build_steps h
  rw [k.cvis, k.pvis]
  exact ⟨fun e => e ▸ C49_scope_partial at_ ms b.vis s hv hs, fun e => e ▸ C49_scope_partial at_ ms b.vis s hv hs⟩

theorem methOf_vis {g : Generics} {t : Option Ident} {v : Vis} {attrs : List Attr} {q : Qual} {sig : Sig}
    {m : Meth} (h : methOf g t v attrs q sig = .ok m) : m.fn.callVis = v := by
  simp only [methOf, gen_bind_ok, gen_pure_ok] at h
  obtain ⟨f, hf, rfl⟩ := h
  obtain ⟨s⟩ := build_steps hf
  exact s.cvis

/-- The name of the function that gives access to the expectations of a function. -/
def SetterName (s : Sig) (n : Ident) : Prop :=
  (IsMethod s.inputs → n = "expect_" ++ s.ident) ∧ (¬ IsMethod s.inputs → n = s.ident ++ "_context")

/-- There is a function `n` of visibility `v` in an `impl` of the type `s`. -/
def HasVis (items : List Item) (s n : Ident) (v : Vis) : Prop :=
  ∃ hd fns g, .impl hd s none fns ∈ items ∧ g ∈ fns ∧ g.name = n ∧ g.head.vis = v

/-- C49: a method of the struct and the functions for its expectations have the visibility of the mocked
method; the functions for those of a trait's method have the visibility of the struct. -/
theorem C49_struct (hash : List Args → Nat) (m : MockableStruct) (items : List Item)
    (h : expandStruct hash m = .ok items) :
    (∀ f ∈ m.methods, HasVis items m.name f.sig.ident f.vis ∧
      ∃ n, SetterName f.sig n ∧ HasVis items m.name n f.vis) ∧
    ∀ i ∈ m.impls, ∀ f, .fn f ∈ i.items → IsPathTo m.name i.selfTy →
      ∃ n, SetterName f.sig n ∧ HasVis items m.name n m.vis := by
  obtain ⟨mi, h1, ⟨L⟩⟩ := expand_steps h
  simp only [mockItemStruct, gen_bind_ok, gen_pure_ok] at h1
  obtain ⟨ms, h1, ts, h2, rfl⟩ := h1
  constructor
  · intro f hf
    obtain ⟨x, hx, e⟩ := mapM_mem h1 hf
    obtain ⟨-, e2, e3, e4⟩ := methOf_ok e
    have ev := methOf_vis e
    refine ⟨⟨_, _, x.call ("__mock_" ++ m.name), L.impl, ?_, e3, ?_⟩, ?_⟩
    · simp only [mainFns, List.mem_append, List.mem_map]
      exact .inl (.inl (.inl (.inl ⟨x, hx, rfl⟩)))
    · show (if x.trait.isSome then Vis.inherited else x.fn.callVis) = f.vis
      rw [e2, ev]; rfl
    · cases hst : x.isStatic with
      | true =>
        refine ⟨f.sig.ident ++ "_context", ⟨fun k => absurd k (e4.1 hst), fun _ => rfl⟩, _, _,
          x.contextFn ("__mock_" ++ m.name), L.impl, ?_, ?_, ev⟩
        · simp only [mainFns, List.mem_append, List.mem_map, List.mem_filter]
          exact .inl (.inl (.inl (.inr ⟨x, ⟨hx, hst⟩, rfl⟩)))
        · show x.name ++ "_context" = _
          rw [e3]
      | false =>
        refine ⟨"expect_" ++ f.sig.ident, ⟨fun _ => rfl, fun k => ?_⟩, _, _,
          x.expect ("__mock_" ++ m.name), L.impl, ?_, ?_, ev⟩
        · rw [e4.2 k] at hst; cases hst
        · simp only [mainFns, List.mem_append, List.mem_map, List.mem_filter]
          exact .inl (.inl (.inr ⟨x, ⟨hx, by rw [hst]; rfl⟩, rfl⟩))
        · show "expect_" ++ x.name = _
          rw [e3]
  · intro i hi f hf hty
    obtain ⟨t, ht, et⟩ := mapM_mem h2 hi
    obtain ⟨-, -, -, a4, -, a5⟩ := mockTrait_ok et
    obtain ⟨x, hx, e⟩ := a4 f hf
    obtain ⟨-, e2, e3, e4⟩ := methOf_ok e
    have ev := methOf_vis e
    have hn : t.selfPath.id = m.name := selfPath_name a5 hty
    have hin := L.traits t ht _ (List.mem_cons_of_mem _ List.mem_cons_self)
    rw [hn] at hin
    cases hst : x.isStatic with
    | true =>
      refine ⟨f.sig.ident ++ "_context", ⟨fun k => absurd k (e4.1 hst), fun _ => rfl⟩, _, _,
        x.contextFn ("__mock_" ++ m.name ++ "_" ++ t.ssName), hin, ?_, ?_, ev⟩
      · simp only [List.mem_append, List.mem_map, List.mem_filter]
        exact .inr ⟨x, ⟨hx, hst⟩, rfl⟩
      · show x.name ++ "_context" = _
        rw [e3]
    | false =>
      refine ⟨"expect_" ++ f.sig.ident, ⟨fun _ => rfl, fun k => ?_⟩, _, _,
        x.expect ("__mock_" ++ m.name ++ "_" ++ t.ssName), hin, ?_, ?_, ev⟩
      · rw [e4.2 k] at hst; cases hst
      · simp only [List.mem_append, List.mem_map, List.mem_filter]
        exact .inl ⟨x, ⟨hx, by rw [hst]; rfl⟩, rfl⟩
      · show "expect_" ++ x.name = _
        rw [e3]

/-! ## Examples -/

/-- `pub(super) fn foo<T: super::Tr>(&self, x: super::X) -> &'static super::Y`. -/
def superFn : Builder where
  sig := {
    ident := "foo"
    generics := { angle := true, params := [.ty { id := "T", bounds := [.trait false [] false [.of "super", .of "Tr"]] }] }
    inputs := [selfArg, .typed [] (.ident false false "x" false) (.path false [.of "super", .of "X"])]
    output := .ty (.ref (some "static") false (.path false [.of "super", .of "Y"])) }
  vis := .restricted false ["super"]
  levels := 2
  callLevels := some 0

/-- It is built, and has paths to adjust. -/
example : ∃ f, build superFn = .ok f ∧
    f.output = .ref (some "static") false (.path false [.of "super", .of "super", .of "super", .of "Y"]) ∧
    (∀ lt m e, Ty.ref (some "static") false (.path false [.of "super", .of "Y"]) = .ref lt m e → ¬ Special e) ∧
    scope ["a", "b"] superFn.vis = some (.within ["a"]) ∧ f.callVis = .restricted false ["super"] ∧
    f.privmodVis = .restricted true ["super", "super", "super"] := by
  have h : ((build superFn).toOption.map fun f => (f.output, f.callVis, f.privmodVis)) =
      some (.ref (some "static") false (.path false [.of "super", .of "super", .of "super", .of "Y"]),
        .restricted false ["super"], .restricted true ["super", "super", "super"]) := by decide +kernel
  cases hb : build superFn with
  | error e => rw [hb] at h; cases h
  | ok f =>
    rw [hb] at h
    have h := Option.some.inj h
    simp only [Prod.mk.injEq] at h
    refine ⟨f, rfl, h.1, ?_, by decide +kernel, h.2.1, h.2.2⟩
    rintro lt m e he
    cases he
    rintro (k | ⟨_, k⟩ | ⟨_, k⟩)
    · revert k; decide +kernel
    · cases k
    · cases k

/-- A struct with private and public methods and a trait. -/
def visStruct : MockableStruct where
  name := "MockFoo"
  vis := .restricted false ["crate"]
  methods := [
    { vis := .pub, sig := { ident := "foo", inputs := [selfArg] } },
    { sig := { ident := "stat" } }]
  impls := [{ trait := some { segs := [.of "A"] }, selfTy := .name "MockFoo"
              items := [.fn { sig := { ident := "bar", inputs := [selfArg] } }] }]

/-- It is accepted. -/
example : Gen.succeeds (expandStruct (fun _ => 0) visStruct) ∧ IsPathTo "MockFoo" (.name "MockFoo") := by
  refine ⟨?_, false, [], .none, rfl⟩
  have h : (expandStruct (fun _ => 0) visStruct).toOption.isSome = true := by decide +kernel
  cases hi : expandStruct (fun _ => 0) visStruct with
  | error e => rw [hi] at h; cases h
  | ok items => exact ⟨items, rfl⟩

end Mockall.Props
