import Verif.Props.DeriveMentionsEx
import Verif.Props.DeriveMentions
import Verif.Props.DeriveConcretize

/-! # C79 with `#[concretize]`

The generics of the function are dropped, lifetimes too.  A function that uses one of its own lifetimes can thus not
be mocked with `#[concretize]`. -/

namespace Mockall.Props

open Derive Spec

/-- No key of the map has a named lifetime. -/
def KeysFree (hm : ConcreteMap) : Prop := ∀ t c, (t, c) ∈ hm → freeLts t = []

theorem saveTypes_free {i : Ident} {b : List Bound} {hm hm' : ConcreteMap} (h : saveTypes i b hm = .ok hm')
    (k : KeysFree hm) : KeysFree hm' := by
  unfold saveTypes at h
  split at h
  · simp only [gen_pure_ok] at h; subst h; exact k
  · simp only [gen_bind_ok, gen_pure_ok] at h
    obtain ⟨d, -, rfl⟩ := h
    intro t c m
    simp only [List.mem_cons, Prod.mk.injEq] at m
    rcases m with ⟨rfl, -⟩ | ⟨rfl, -⟩ | ⟨rfl, -⟩ | ⟨rfl, -⟩ | m
    iterate 4 simp [freeLts, freeLtsSegs, freeLtsSeg, freeLtsArgs, Ty.name, Seg.of]
    exact k t c m

theorem saveTypesParams_free : ∀ {l : List GParam} {hm hm' : ConcreteMap}, saveTypesParams l hm = .ok hm' →
    KeysFree hm → KeysFree hm'
  | [], hm, hm', h, k => by simp only [saveTypesParams, gen_pure_ok] at h; subst h; exact k
  | .ty p :: l, hm, hm', h, k => by
    simp only [saveTypesParams, gen_bind_ok] at h
    obtain ⟨m, hm, h⟩ := h
    exact saveTypesParams_free h (saveTypes_free hm k)
  | .lt p :: l, hm, hm', h, k => saveTypesParams_free (l := l) h k
  | .const i t :: l, hm, hm', h, k => saveTypesParams_free (l := l) h k

theorem saveTypesPreds_free : ∀ {l : List WPred} {hm hm' : ConcreteMap}, saveTypesPreds l hm = .ok hm' →
    KeysFree hm → KeysFree hm'
  | [], hm, hm', h, k => by simp only [saveTypesPreds, gen_pure_ok] at h; subst h; exact k
  | .ty ls t b :: l, hm, hm', h, k => by
    simp only [saveTypesPreds] at h
    split at h
    · simp only [gen_bind_ok] at h
      obtain ⟨m, hm, h⟩ := h
      exact saveTypesPreds_free h (saveTypes_free hm k)
    · exact saveTypesPreds_free h k
  | .lt a b :: l, hm, hm', h, k => saveTypesPreds_free (l := l) h k

/-- An argument whose type has a lifetime is left as it is. -/
theorem concretize_keeps {b : Builder} {f : MockFn} (s : Steps b f) (hc : b.concretize = true) {a : Lt}
    (h : ArgLt b.sig.inputs a) : ArgLt s.inputs a := by
  obtain ⟨t, ht, ha⟩ := h
  have hp := s.prep
  simp only [prepare, hc, if_true, concretizeArgs, gen_bind_ok, gen_pure_ok, Prod.mk.injEq] at hp
  obtain ⟨m, h1, hm, h2, outargs, h3, _, -, _, -, -, hx, -⟩ := hp
  have hk : KeysFree hm := saveTypesPreds_free h2 (saveTypesParams_free h1 (fun _ _ k => by cases k))
  rw [← hx]
  obtain ⟨x, hx, e⟩ := List.mem_filterMap.1 ht
  obtain ⟨y, hy, k⟩ := mapM_mem h3 hx
  cases x with
  | receiver => cases e
  | typed as p t' =>
    cases e
    simp only [concretizeArg, gen_bind_ok] at k
    obtain ⟨p', -, k⟩ := k
    split at k
    · rename_i c hl
      have : (t, c) ∈ hm := by
        have : ∀ l : ConcreteMap, l.lookup t = some c → (t, c) ∈ l := by
          intro l
          induction l with
          | nil => intro h; cases h
          | cons z l ih =>
            obtain ⟨u, d⟩ := z
            rw [List.lookup_cons]
            split
            · rename_i he
              intro h
              cases h
              rw [eq_of_beq he]
              exact List.mem_cons_self
            · exact fun h => List.mem_cons_of_mem _ (ih h)
        exact this _ hl
      rw [hk _ _ this] at ha
      cases ha
    · simp only [gen_pure_ok] at k
      subst k
      exact ⟨t, List.mem_filterMap.2 ⟨_, hy, rfl⟩, ha⟩

/-- If a function with `#[concretize]` uses a lifetime that is not one of the struct's, in the type of an argument or in
what it returns, then the generated code uses this lifetime where it is not declared. -/
theorem C79_concretize (b : Builder) (f : MockFn) (hc : b.concretize = true) (hs : Wf (b.structGenerics.getD {}))
    (h : build b = .ok f) (a : Lt) (hn : NamedLt a) (hg : a ∉ lifetimes (b.structGenerics.getD {}))
    (hu : ArgLt b.sig.inputs a ∨ a ∈ freeLtsRet b.sig.output) :
    ¬ LifetimesDeclared (b.structGenerics.getD {}) f := by
  intro H
  obtain ⟨s⟩ := build_steps h
  obtain ⟨-, hd, -⟩ := steps_concretized s hc
  have w0 : Wf s.dg' := by rw [hd]; intro; rfl
  obtain ⟨t1, -, a1, r1⟩ := split_kept hs s.sgen
  obtain ⟨t2, -, a2, r2⟩ := split_kept w0 s.mgen
  obtain ⟨w1, -⟩ := split_typeParams hs s.sgen
  obtain ⟨w2, -⟩ := split_typeParams w0 s.mgen
  have no : ∀ p, p ∉ ltParams s.dg' := by rw [hd]; intro p k; cases k
  have hE : a ∉ lifetimes f.egenerics := by
    rw [lifetimes_key, s.egen, merge_mem_keys (merge_weak (ltsToGenerics_weak _)) (ltsToGenerics_weak _),
      merge_mem_keys (by rw [s.cgen]; exact merge_weak w2) (ltsToGenerics_weak _), s.cgen, merge_mem_keys w1 w2,
      ← lifetimes_key (ltsToGenerics _), ← lifetimes_key (ltsToGenerics _), ltsToGenerics_lifetimes,
      ltsToGenerics_lifetimes]
    rintro (((k | k) | k) | k)
    · exact t1 a k
    · exact t2 a k
    · obtain ⟨p, m, rfl⟩ := List.mem_map.1 k
      exact hg (List.mem_map_of_mem (r1 p m))
    · obtain ⟨p, m, rfl⟩ := List.mem_map.1 k
      exact no p (r2 p m)
  have hA : a ∉ lifetimes f.lg := by
    rw [MockFn.lg, ltsToGenerics_lifetimes, s.alts]
    intro k
    obtain ⟨p, m, rfl⟩ := List.mem_map.1 k
    rw [List.mem_eraseDups, List.mem_append] at m
    exact m.elim (fun k => hg (List.mem_map_of_mem (a1 p k))) fun k => no p (a2 p k)
  have hsite : Site.mk "Expectations::call" [] [f.egenerics, f.lg] [] [] (f.argTys ++ [f.output]) ∈
      f.sites (b.structGenerics.getD {}) := by
    simp only [MockFn.sites, List.mem_append]
    exact .inl (.inl (.inl (.inl (.inr (by simp [MockFn.expectationsSites])))))
  have hO : Site.uses (Site.mk "Expectations::call" [] [f.egenerics, f.lg] [] [] (f.argTys ++ [f.output])) a := by
    rcases hu with hu | hu
    · have : ¬ Only (· ≠ a) f.argTys := by
        rw [(only_args s).1]
        exact fun k => k a hn (concretize_keeps s hc hu) rfl
      simp only [Only, Classical.not_forall, Classical.not_not] at this
      obtain ⟨_, _, ⟨t, ht, k⟩, rfl⟩ := this
      exact .inr (.inl ⟨t, List.mem_append_left _ ht, k⟩)
    · exact .inr (.inl ⟨f.output, List.mem_append_right _ List.mem_cons_self, by rw [(build_output s.out).1]; exact hu⟩)
  obtain ⟨g, hg, k⟩ := (H _ hsite).1 a hn hO
  simp only [List.nil_append, List.mem_cons, List.not_mem_nil, or_false] at hg
  rcases hg with rfl | rfl
  · exact hE k
  · exact hA k

/-- The type parameters of the struct are declared in all the code that uses them, as without `#[concretize]`. -/
theorem C79_concretize_types (b : Builder) (f : MockFn) (hc : b.concretize = true)
    (hs : Wf (b.structGenerics.getD {})) (h : build b = .ok f) (n : Ident)
    (hn : HasTyParam (b.structGenerics.getD {}) n) (hx : n ≠ "Context") :
    ∀ s ∈ f.sites (b.structGenerics.getD {}), Site.mentions s n → Site.declaresTy s n := by
  obtain ⟨s⟩ := build_steps h
  obtain ⟨-, hd, -⟩ := steps_concretized s hc
  have he := ((C61_one_store b f hc h).2.1 hs n).2 hn
  rw [s.params, typeParams_has] at he
  exact types_declared s hs (by rw [hd]; intro; rfl) n he (.inl hn) (fun k => absurd hn k) hx

/-- `#[concretize] fn f<'a, P: AsRef<Path>>(&self, p: P, x: &'a str) -> out` -/
def exConcrete (out : Ret) (l : Option Lt) : Builder where
  sig := { ident := "f", output := out,
           generics := { angle := true, params := [.lt ⟨"a", []⟩, .ty { id := "P", bounds := [.trait false [] false
             [.mk "AsRef" (.angle [.ty (.name "Path")])]] }] },
           inputs := [selfRef none, arg "p" (.name "P"), arg "x" (.ref l false (.name "str"))] }
  concretize := true

/-- `C79_concretize` applies to a lifetime in an argument and to one in what is returned, and the code that lacks the
declaration is that of all the methods that take arguments.  Without the lifetime all is well. -/
theorem C79_concretize_inhabited :
    (∃ f, build (exConcrete .unit (some "a")) = .ok f ∧ ¬ LifetimesDeclared {} f) ∧
    (∃ f, build (exConcrete (.ty (withLt "X" "a")) none) = .ok f ∧ ¬ LifetimesDeclared {} f) ∧
    Leaves (exConcrete .unit (some "a")) ["Rfunc", "Rfunc::call_mut", "Expectation::call", "Expectation::returning",
      "Expectations::call"] ∧
    Leaves (exConcrete .unit none) [] := by
  refine ⟨?_, ?_, built_with (by decide +kernel), built_with (by decide +kernel)⟩
  · obtain ⟨f, hf, -⟩ := built_with (b := exConcrete .unit (some "a")) (P := fun _ => True) (by decide +kernel)
    refine ⟨f, hf, C79_concretize _ f rfl (fun _ => rfl) hf "a" ⟨by decide, by decide⟩ ?_ (.inl
      ⟨.ref (some "a") false (.name "str"), ?_, ?_⟩)⟩
    · exact fun k => by cases k
    · exact .tail _ (.head _)
    · simp [freeLts]
  · obtain ⟨f, hf, -⟩ := built_with (b := exConcrete (.ty (withLt "X" "a")) none) (P := fun _ => True)
      (by decide +kernel)
    refine ⟨f, hf, C79_concretize _ f rfl (fun _ => rfl) hf "a" ⟨by decide, by decide⟩ ?_ (.inr ?_)⟩
    · exact fun k => by cases k
    · simp [exConcrete, withLt, freeLtsRet, freeLts, freeLtsSegs, freeLtsSeg, freeLtsArgs, freeLtsGArgs, freeLtsGArg]

/-- `C79_concretize_types` applies to a struct with bounds on its parameter, which the code does use. -/
example : ∃ f, build { boundedGet true with concretize := true } = .ok f ∧
    (∀ s ∈ f.sites boundedStruct, Site.mentions s "T" → Site.declaresTy s "T") ∧
    ∃ s ∈ f.sites boundedStruct, Site.mentions s "T" := by
  obtain ⟨f, hf, s, hs, t, ht, k⟩ := built_with (b := { boundedGet true with concretize := true })
    (P := fun f => ∃ s ∈ f.sites boundedStruct, ∃ t ∈ s.tys, .seg "T" true ∈ leaves t) (by decide +kernel)
  exact ⟨f, hf, C79_concretize_types _ f rfl (by simp [Wf, boundedGet, boundedStruct]) hf "T"
    ⟨_, List.mem_singleton.2 rfl, rfl⟩ (by decide), s, hs, .inr ⟨t, by simp [ht], _, k⟩⟩

end Mockall.Props
