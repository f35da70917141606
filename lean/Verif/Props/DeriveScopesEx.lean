import Verif.Props.DeriveScopes

/-! # Examples for C79 -/

namespace Mockall.Props

open Derive Spec

theorem built_with {b : Builder} {P : MockFn → Prop} [DecidablePred P]
    (h : (build b).toOption.map (fun f => decide (P f)) = some true) : ∃ f, build b = .ok f ∧ P f := by
  cases hb : build b with
  | error e => rw [hb] at h; cases h
  | ok f => rw [hb] at h; exact ⟨f, rfl, by simpa [Except.toOption] using h⟩

/-- `x: t` -/
def arg (x : Ident) (t : Ty) : FnArg := .typed [] (.ident false false x false) t

/-- `&self` or `&'l self` -/
def selfRef (l : Option Lt) (m : Bool := false) : FnArg := .receiver (some l) m false (.name "Self")

/-- `X<'l>` -/
def withLt (x : Ident) (l : Lt) : Ty := .path false [.mk x (.angle [.lt l])]

/-! ## A function for which all is declared -/

/-- `fn put<'a, 'b>(&'b self, k: &'a str, w: Wrap<'a>) -> Wrap<'b>` -/
def putBoth : Builder where
  sig := { ident := "put", generics := { angle := true, params := [.lt ⟨"a", []⟩, .lt ⟨"b", []⟩] },
           inputs := [selfRef (some "b"), arg "k" (.ref (some "a") false (.name "str")), arg "w" (withLt "Wrap" "a")],
           output := .ty (withLt "Wrap" "b") }

theorem putBoth_noClosure (n : Ident) : ¬ Closure putBoth.sig.generics n := by
  rintro ⟨bs, h, -⟩
  cases h with
  | param p h hn => simp [putBoth] at h
  | pred ls t bs h hn => simp [putBoth] at h

theorem putBoth_args {l : List FnArg} (h : Pointwise (ArgBoxes putBoth.sig.generics) putBoth.sig.inputs l) :
    l = putBoth.sig.inputs := by
  have hb : ∀ {t t' : Ty}, Boxes putBoth.sig.generics t t' → t' = t := by
    intro t t' h
    cases h with
    | closure n bs h => exact absurd ⟨bs, h⟩ (putBoth_noClosure n)
    | other t h => rfl
  cases h with
  | cons h1 h =>
    cases h with
    | cons h2 h =>
      cases h with
      | cons h3 h =>
        cases h
        cases h1
        cases h2 with
        | typed _ _ _ _ _ hp ht =>
          cases hp
          cases h3 with
          | typed _ _ _ _ _ hp' ht' =>
            cases hp'
            rw [hb ht, hb ht']
            rfl

theorem putBoth_params (a : Lt) : IsLtParam {} putBoth.sig.generics a ↔ a = "a" ∨ a = "b" := by
  simp [IsLtParam, lifetimes, ltParams, putBoth]

theorem putBoth_simple : SimpleLts {} putBoth.sig.generics putBoth.sig.inputs putBoth.sig.output where
  declared a _ h := by
    rw [putBoth_params]
    rcases h with ⟨t, ht, h⟩ | h
    · simp only [argTypes, putBoth, selfRef, arg, withLt, List.filterMap_cons, List.filterMap_nil, List.mem_cons,
        List.not_mem_nil, or_false] at ht
      rcases ht with rfl | rfl <;> simp [freeLts, freeLtsSegs, freeLtsSeg, freeLtsArgs, freeLtsGArgs, freeLtsGArg,
        Ty.name, Seg.of] at h <;> exact .inl h
    · simp [putBoth, withLt, freeLtsRet, freeLts, freeLtsSegs, freeLtsSeg, freeLtsArgs, freeLtsGArgs, freeLtsGArg] at h
      exact .inr h
  plain a h := by
    rw [putBoth_params] at h
    have : ∀ a ∈ ["a", "b"], (∀ t ∈ argTypes putBoth.sig.inputs,
        .lt a ∉ unseen { fnArgs := true } t ∧ a ∉ binders t) ∧
        .lt a ∉ unseen { fnArgs := true } (withLt "Wrap" "b") ∧ a ∉ binders (withLt "Wrap" "b") := by decide +kernel
    exact this a (by simpa using h)
  unbound a _ := by simp [boundLts, putBoth, freeLtsParam]
  free p h := by
    simp only [ltParams, putBoth] at h
    simp at h
    rcases h with rfl | rfl <;> rfl
  fresh := by rw [putBoth_params]; decide

/-- The hypotheses of `C79_lifetimes` and its conditions hold for a function with lifetimes of both sorts. -/
theorem C79_lifetimes_inhabited : ∃ f, build putBoth = .ok f ∧ LifetimesDeclared {} f ∧
    f.alifetimes.map LtParam.lt = ["a"] ∧ lifetimes f.egenerics = ["b"] := by
  obtain ⟨f, hf, h1, h2⟩ := built_with (b := putBoth)
    (P := fun f => f.alifetimes.map LtParam.lt = ["a"] ∧ lifetimes f.egenerics = ["b"]) (by decide +kernel)
  refine ⟨f, hf, ?_, h1, h2⟩
  obtain ⟨l, hp, h⟩ := C79_lifetimes putBoth f rfl (fun _ => rfl) (fun h => by cases h) hf
  have hl := putBoth_args hp
  subst hl
  have hbehind : ∀ a, BehindLt putBoth.sig.output a ↔ a = "b" := by
    intro a
    simp [BehindLt, putBoth, withLt, behind, freeLts, freeLtsSegs, freeLtsSeg, freeLtsArgs, freeLtsGArgs, freeLtsGArg]
  have hown : ¬ OwnGenerics putBoth.sig.generics := by
    rintro (⟨n, ⟨p, hp, -⟩, -⟩ | ⟨-, w, hw, -⟩)
    · simp [putBoth] at hp
    · cases hw
  have hstored : ¬ StoredByType {} putBoth.sig.generics putBoth.sig.inputs := by
    rintro (h | ⟨h, -⟩)
    · exact hown h
    · exact h ⟨_, _, _, _, List.mem_cons_self⟩
  refine (h putBoth_simple).2 ⟨fun a _ k => ?_, fun k => ?_, fun a _ k => .inl ?_, fun k => ?_, fun k => absurd k hown⟩
  · obtain ⟨t, ht, k⟩ := k
    rw [hbehind]
    rintro rfl
    have : ∀ t ∈ argTypes putBoth.sig.inputs, "b" ∉ freeLts (pointee t) := by decide +kernel
    exact this t ht k
  · rcases k with ⟨lt, e, k, -⟩ | k
    · simp [putBoth, withLt] at k
    · exact absurd k hstored
  · rw [hbehind]
    simpa [putBoth, withLt, freeLtsRet, freeLts, freeLtsSegs, freeLtsSeg, freeLtsArgs, freeLtsGArgs, freeLtsGArg]
      using k
  · exact absurd ⟨_, _, _, _, List.mem_cons_self⟩ k

/-! ## Functions for which something is not declared -/

instance (s : Site) (l : Lt) : Decidable (Site.uses s l) := by unfold Site.uses; infer_instance

instance (s : Site) (l : Lt) : Decidable (Site.declares s l) := by unfold Site.declares; infer_instance

/-- The pieces of code that use `'a` without a declaration. -/
def undeclared (sg : Generics) (f : MockFn) (a : Lt) : List String :=
  ((f.sites sg).filter fun s => decide (Site.uses s a ∧ ¬ Site.declares s a)).map Site.name

theorem not_declared {sg : Generics} {f : MockFn} {a : Lt} (hn : NamedLt a) (h : undeclared sg f a ≠ []) :
    ¬ LifetimesDeclared sg f := by
  intro H
  cases hu : (f.sites sg).filter fun s => decide (Site.uses s a ∧ ¬ Site.declares s a) with
  | nil => rw [undeclared, hu] at h; exact h rfl
  | cons s l =>
    obtain ⟨hs, k⟩ := List.mem_filter.1 (hu ▸ List.mem_cons_self : s ∈ _)
    obtain ⟨k1, k2⟩ := of_decide_eq_true k
    exact k2 ((H s hs).1 a hn k1)

/-- The function is accepted, and exactly these pieces of its code use `'a` without a declaration. -/
def Leaves (b : Builder) (l : List String) : Prop :=
  ∃ f, build b = .ok f ∧ undeclared (b.structGenerics.getD {}) f "a" = l

/-- `<'a>` -/
def ltA : Generics := { angle := true, params := [.lt ⟨"a", []⟩] }

/-- `<'a, T: 'static>` -/
def ltAT : Generics := { angle := true, params := [.lt ⟨"a", []⟩, .ty { id := "T", bounds := [.lt "static"] }] }

/-- `fn foo<'a>(&self, x: X<'a>) -> X<'a>` -/
def exEcho : Builder where
  sig := { ident := "foo", generics := ltA, inputs := [selfRef none, arg "x" (withLt "X" "a")],
           output := .ty (withLt "X" "a") }

/-- `fn foo<'a, T: 'static>(&self, t: T, x: &'a str)` -/
def exStored : Builder where
  sig := { ident := "foo", generics := ltAT,
           inputs := [selfRef none, arg "t" (.name "T"), arg "x" (.ref (some "a") false (.name "str"))] }

/-- `fn foo<'a>(&mut self, x: &'a str) -> &mut u32` -/
def exMut : Builder where
  sig := { ident := "foo", generics := ltA,
           inputs := [selfRef none true, arg "x" (.ref (some "a") false (.name "str"))],
           output := .ty (.ref none true (.name "u32")) }

/-- `fn foo<'a>() -> X<'a>` -/
def exNoSelf : Builder where
  sig := { ident := "foo", generics := ltA, output := .ty (withLt "X" "a") }

/-- `fn foo(&self) -> &'a u32`, of a struct with the parameter `'a` -/
def exOfStruct : Builder where
  sig := { ident := "foo", inputs := [selfRef none], output := .ty (.ref (some "a") false (.name "u32")) }
  structGenerics := some ltA

/-- `fn foo<'a>(&self, x: Box<dyn Fn(&'a str)>)` -/
def exInFn : Builder where
  sig := { ident := "foo", generics := ltA,
           inputs := [selfRef none, arg "x" (.path false [.mk "Box" (.angle [.ty (.traitObject
             [.trait false [] false [.mk "Fn" (.paren [.ref (some "a") false (.name "str")] .unit)]])])])] }

/-- `fn foo<'a, T: 'static>(&self, t: T) -> &X<'a>` -/
def exBehind : Builder where
  sig := { ident := "foo", generics := ltAT, inputs := [selfRef none, arg "t" (.name "T")],
           output := .ty (.ref none false (withLt "X" "a")) }

/-- Each condition of `C79_lifetimes` is violated by a function that the macro accepts, and the pieces of code named
here use `'a` where it is not declared.  The last example is excluded by the hypothesis on `Fn(..)`. -/
theorem C79_undeclared :
    Leaves exEcho ["Matcher", "Matcher::matches", "Common::matches", "Common::with", "Common::withf"] ∧
    Leaves exStored ["GenericExpectations::call"] ∧
    Leaves exMut ["Rfunc", "Expectation::returning"] ∧
    Leaves exNoSelf ["get_expectations", "Context::expect"] ∧
    Leaves exOfStruct ["Expectation::call", "Expectations::call"] ∧
    Leaves exBehind ["expect"] ∧
    Leaves exInFn ["Rfunc", "Rfunc::call_mut", "Matcher", "Matcher::matches", "Common::matches", "Common::with",
      "Common::withf", "Expectation::call", "Expectation::matches", "Expectation::with", "Expectation::withf",
      "Expectation::returning", "Expectations::call"] :=
  ⟨built_with (by decide +kernel), built_with (by decide +kernel), built_with (by decide +kernel),
    built_with (by decide +kernel), built_with (by decide +kernel), built_with (by decide +kernel),
    built_with (by decide +kernel)⟩

theorem Leaves.not_declared {b : Builder} {l : List String} (h : Leaves b l) (hl : l ≠ []) :
    ∃ f, build b = .ok f ∧ ¬ LifetimesDeclared (b.structGenerics.getD {}) f := by
  obtain ⟨f, hf, rfl⟩ := h
  exact ⟨f, hf, Props.not_declared ⟨by decide, by decide⟩ hl⟩

/-- `C79_types` applies to the function of `exStored`, and `T` is used. -/
theorem C79_types_inhabited : ∃ f, build exStored = .ok f ∧
    (∀ s ∈ f.sites {}, Site.mentions s "T" → Site.declaresTy s "T") ∧ ∃ s ∈ f.sites {}, Site.mentions s "T" := by
  obtain ⟨f, hf, hm⟩ := built_with (b := exStored) (P := fun f => ∃ s ∈ f.sites {}, ∃ t ∈ s.tys, .seg "T" true ∈ leaves t)
    (by decide +kernel)
  refine ⟨f, hf, ?_, ?_⟩
  · refine C79_types exStored f rfl (fun _ => rfl) (fun h => by cases h) hf "T" (.inr ⟨?_, ?_⟩) (fun _ => ?_) (by decide)
    · exact ⟨_, List.mem_cons_of_mem _ List.mem_cons_self, rfl⟩
    · rintro ⟨bs, h, b, hb, k⟩
      cases h with
      | param p h hn =>
        simp only [exStored, ltAT, List.mem_cons, reduceCtorEq, GParam.ty.injEq, List.not_mem_nil, or_false,
          false_or] at h
        subst h
        rw [List.mem_singleton] at hb
        subst hb
        cases k
      | pred ls t bs h hn => cases h
    · rintro (⟨p, h, -⟩ | ⟨w, h, -⟩) <;> cases h
  · obtain ⟨s, hs, t, ht, k⟩ := hm
    exact ⟨s, hs, .inr ⟨t, List.mem_append_left _ ht, _, k⟩⟩

/-- `fn foo<'b, 'a: 'b>(&self, x: &'a str)` -/
def exBounded : Builder where
  sig := { ident := "foo", generics := { angle := true, params := [.lt ⟨"b", []⟩, .lt ⟨"a", ["b"]⟩] },
           inputs := [selfRef none, arg "x" (.ref (some "a") false (.name "str"))] }

/-- `fn foo<'a, T: Tr<'a>>(&self, t: T)` -/
def exBoundBy : Builder where
  sig := { ident := "foo",
           generics := { angle := true, params := [.lt ⟨"a", []⟩, .ty { id := "T", bounds :=
             [.trait false [] false [.mk "Tr" (.angle [.lt "a"])]] }] },
           inputs := [selfRef none, arg "t" (.name "T")] }

/-- The hypotheses of `C79_bounded_lifetime` are met. -/
theorem C79_bounded_inhabited : ∃ f, build exBounded = .ok f ∧ ¬ LifetimesDeclared {} f := by
  obtain ⟨f, hf, hm⟩ := built_with (b := exBounded) (P := fun f => f.alifetimes = [⟨"a", ["b"]⟩]) (by decide +kernel)
  refine ⟨f, hf, ?_⟩
  obtain ⟨l, hp, h⟩ := C79_bounded_lifetime exBounded f rfl (fun _ => rfl) (fun h => by cases h) hf ⟨"a", ["b"]⟩
    (.inr (by decide)) (by decide)
  have hl : ∃ p, l = [selfRef none, .typed [] p (.ref (some "a") false (.name "str"))] := by
    cases hp with
    | cons h1 hp =>
      cases hp with
      | cons h2 hp =>
        cases hp
        cases h1
        cases h2 with
        | typed _ _ p _ _ _ ht =>
          cases ht
          exact ⟨p, rfl⟩
  obtain ⟨p, rfl⟩ := hl
  refine h (fun t ht => ?_) trivial (.inl ⟨_, List.mem_singleton.2 rfl, by decide⟩) (fun h => by cases h)
  obtain rfl := List.mem_singleton.1 ht
  exact ⟨by decide, by decide⟩

/-- The hypotheses of `C79_bound_by_lifetime` are met. -/
theorem C79_bound_by_inhabited : ∃ f, build exBoundBy = .ok f ∧ ¬ LifetimesDeclared {} f := by
  obtain ⟨f, hf, hm⟩ := built_with (b := exBoundBy) (P := fun f => f.fnParams = ["T"]) (by decide +kernel)
  refine ⟨f, hf, C79_bound_by_lifetime exBoundBy f rfl (fun _ => rfl) (fun h => by cases h) hf "T"
    (.trait false [] false [.mk "Tr" (.angle [.lt "a"])]) "a" (.inr ⟨?_, ?_⟩) (by decide) ⟨by decide, by decide⟩⟩
  · exact ⟨_, List.mem_cons_of_mem _ List.mem_cons_self, rfl, List.mem_singleton.2 rfl⟩
  · rintro ⟨bs, h, b, hb, k⟩
    cases h with
    | param p h hn =>
      simp only [exBoundBy, List.mem_cons, reduceCtorEq, GParam.ty.injEq, List.not_mem_nil, or_false, false_or] at h
      subst h
      rw [List.mem_singleton] at hb
      subst hb
      generalize he : Bound.trait false [] false [.mk "Tr" (.angle [.lt "a"])] = x at k
      obtain ⟨_, _, _, init, id, args, k⟩ := k
      simp only [Bound.trait.injEq, List.singleton_eq_append_iff, List.cons.injEq, Seg.mk.injEq] at he
      obtain ⟨-, -, -, ⟨-, ⟨h, -⟩, -⟩ | ⟨-, h⟩⟩ := he
      · subst h; revert k; decide
      · cases h
    | pred ls t bs h hn => cases h

end Mockall.Props
