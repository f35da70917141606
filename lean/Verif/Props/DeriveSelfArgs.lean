import Verif.Derive.SelfArgs
import Verif.Spec.SelfArgs
import Verif.Props.DeriveScopes
import Verif.Props.DeriveMacros

/-! # C81: traits that are implemented for particular arguments of the mock struct -/

namespace Mockall.Props

open Derive Spec

/-- The parameters that are not lifetimes. -/
def nonLts (l : List GParam) : List (ParamKind × String) := (l.map GParam.key).filter fun k => k.1 ≠ .lt

theorem addParam_nonLts (p : LtParam) (l : List GParam) : nonLts (addParam (.lt p) l) = nonLts l := by
  rw [nonLts, addParam_keys]
  split <;> simp [nonLts, GParam.key]

theorem foldl_nonLts : ∀ (ys : List LtParam) (l : List GParam),
    nonLts ((ys.map GParam.lt).foldl (fun out p => addParam p out) l) = nonLts l
  | [], _ => rfl
  | y :: ys, l => by rw [List.map_cons, List.foldl_cons, foldl_nonLts ys, addParam_nonLts]

theorem merge_nonLts {x : Generics} (hx : Weak x) (l : List LtParam) :
    nonLts (mergeGenerics x (ltsToGenerics l)).params = nonLts x.params := by
  have hl : (ltsToGenerics l).params = l.map .lt := by
    unfold ltsToGenerics
    split
    · rename_i h; rw [h]; rfl
    · rfl
  simp only [mergeGenerics, mergeParams]
  split
  · rename_i h
    rw [hx h.1 h.2, hl]
    simp [nonLts, GParam.key]
  · split
    · rfl
    · dsimp only
      rw [hl, foldl_nonLts]

theorem merge_none {x y : Generics} (hx : Weak x) (hy : y.params = []) : (mergeGenerics x y).params = x.params := by
  simp only [mergeGenerics, mergeParams]
  split
  · rename_i h; rw [hx h.1 h.2, hy]
  · split
    · rfl
    · dsimp only; rw [hy]; rfl

theorem steps_wf {b : Builder} {f : MockFn} (s : Steps b f) (hw : Wf b.sig.generics) : Wf s.dg' := by
  cases hc : b.concretize with
  | false => exact (steps_prepared s hc hw).1.wf
  | true =>
    have hp := s.prep
    simp only [prepare, hc, if_true, concretizeArgs, gen_bind_ok, gen_pure_ok, Prod.mk.injEq] at hp
    obtain ⟨m, -, hm, -, outargs, -, calls, -, ins, -, hdg, -⟩ := hp
    have hg := s.gens
    rw [← hdg] at hg
    simp only [supersuperfyGenerics, List.mapM_nil, gen_bind_ok, gen_pure_ok] at hg
    obtain ⟨_, rfl, hg⟩ := hg
    rw [← hg]
    exact fun _ => rfl

/-- A method that is not generic has no generics of its own. -/
theorem call_none {b : Builder} {f : MockFn} (s : Steps b f) (hw : Wf b.sig.generics) (hg : f.isMethodGeneric = false) :
    f.callGenerics.params = [] := by
  have wf := steps_wf s hw
  have hn : ¬ ∃ n, HasTyParam f.callGenerics n := by
    intro h
    have := (isGeneric_method f).2 (.inl h)
    rw [hg] at this
    cases this
  cases ha : s.dg'.angle with
  | false =>
    have h := s.mgen
    rw [C45_no_params _ _ _ ha] at h
    injection h with h
    injection h with h _
    rw [← h, wf ha]
  | true =>
    have h := (C45_split_partial _ _ _ _ _ _ ha s.mgen).1
    cases ht : tyParams s.dg' with
    | nil => rw [h, ht]; rfl
    | cons p l =>
      refine absurd ⟨p.id, p, ?_, rfl⟩ hn
      rw [h, ht]
      exact List.mem_cons_self

theorem split_nonLts {g tg : Generics} {args : List FnArg} {rt : Ret} {al rl : List LtParam}
    (hg : Wf g) (h : splitLifetimes g args rt = .ok (tg, al, rl)) :
    nonLts tg.params = (typeParams g).map fun n => (.ty, n) := by
  cases ha : g.angle with
  | false =>
    rw [C45_no_params _ _ _ ha] at h
    injection h with h
    injection h with h _
    rw [← h, typeParams, hg ha]
    rfl
  | true =>
    rw [(C45_split_partial _ _ _ _ _ _ ha h).1, nonLts, typeParams, tyParams]
    generalize g.params = l
    induction l with
    | nil => rfl
    | cons p l ih => cases p <;> simpa [GParam.key] using ih

/-- The parameters of `Expectation` that are not lifetimes are the type parameters of the struct. -/
theorem expectation_nonLts {b : Builder} {f : MockFn} (s : Steps b f) (hs : Wf (b.structGenerics.getD {}))
    (hw : Wf b.sig.generics) (hg : f.isMethodGeneric = false) :
    nonLts f.egenerics.params = (typeParams (b.structGenerics.getD {})).map fun n => (.ty, n) := by
  obtain ⟨w1, -⟩ := split_typeParams hs s.sgen
  have hc := call_none s hw hg
  have w2 : Weak f.callGenerics := fun _ _ => hc
  rw [s.egen, merge_nonLts (merge_weak (ltsToGenerics_weak _)), merge_nonLts (by rw [s.cgen]; exact merge_weak w2), s.cgen,
    merge_none w1 hc, split_nonLts hs s.sgen]

/-- A parameter as an argument, by its kind and name. -/
def keyAsArg : ParamKind × String → GArg
  | (.lt, n) => .lt n
  | (.ty, n) => .ty (.name n)
  | (.const, n) => .const (.path false [n])

theorem paramAsArg_key (p : GParam) : paramAsArg p = keyAsArg (GParam.key p) := by cases p <;> rfl

theorem nonLts_map (l : List GParam) :
    (l.filter (!·.isLt)).map paramAsArg = (nonLts l).map keyAsArg := by
  induction l with
  | nil => rfl
  | cons p l ih =>
    rw [nonLts] at ih ⊢
    cases p <;> simp_all [GParam.key, paramAsArg, keyAsArg, GParam.isLt]

theorem nonLts_staticize (g : Generics) : nonLts (staticize g).params = nonLts g.params := by
  rw [staticize]
  dsimp only
  generalize g.params = l
  induction l with
  | nil => rfl
  | cons p l ih => rw [nonLts] at ih ⊢; cases p <;> simp_all [GParam.key, nonLts]

theorem staticize_lts_args (g : Generics) :
    ((staticize g).params.filter (·.isLt)).map paramAsArg =
      List.replicate (ltCount g) (.lt "static") := by
  rw [staticize, ltCount]
  dsimp only
  generalize g.params = l
  induction l with
  | nil => rfl
  | cons p l ih => cases p <;> simp_all [paramAsArg, List.replicate_succ, GParam.isLt]

/-- The arguments of the field's type: `'static` for each lifetime, and the type parameters of the struct. -/
theorem fieldArgs_eq {b : Builder} {f : MockFn} (s : Steps b f) (hs : Wf (b.structGenerics.getD {}))
    (hw : Wf b.sig.generics) (hg : f.isMethodGeneric = false) :
    f.fieldArgs = List.replicate (ltCount f.egenerics) (.lt "static") ++
      (typeParams (b.structGenerics.getD {})).map fun n => .ty (.name n) := by
  rw [MockFn.fieldArgs, printedArgs, List.map_append, staticize_lts_args, nonLts_map, nonLts_staticize,
    expectation_nonLts s hs hw hg, List.map_map]
  rfl

theorem pointwise_length {α β : Type} {R : α → β → Prop} {l : List α} {m : List β} (h : Pointwise R l m) :
    l.length = m.length := by
  induction h with
  | nil => rfl
  | cons _ _ ih => simp [ih]

theorem pointwise_replicate {α β : Type} {R : α → β → Prop} {a : α} {b : β} (h : R a b) :
    ∀ n, Pointwise R (List.replicate n a) (List.replicate n b)
  | 0 => .nil
  | n + 1 => .cons h (pointwise_replicate h n)

theorem typeParams_short (g : Generics) : (typeParams g).length ≤ g.params.length ∧
    ((typeParams g).length = g.params.length → ∀ p ∈ g.params, ∃ q, p = .ty q) := by
  rw [typeParams]
  generalize g.params = l
  induction l with
  | nil => exact ⟨Nat.le_refl _, by simp⟩
  | cons p l ih =>
    cases p with
    | ty p =>
      refine ⟨by simpa using ih.1, fun h q hq => ?_⟩
      rcases List.mem_cons.1 hq with rfl | hq
      · exact ⟨p, rfl⟩
      · exact ih.2 (by simpa using h) q hq
    | lt p =>
      refine ⟨by simpa using Nat.le_succ_of_le ih.1, fun h => ?_⟩
      have := ih.1
      simp at h
      omega
    | const i t =>
      refine ⟨by simpa using Nat.le_succ_of_le ih.1, fun h => ?_⟩
      have := ih.1
      simp at h
      omega

theorem stands_pointwise {P : List GParam} {A : List GArg} : ∀ {ps : List GParam} {as : List GArg}, Pointwise FitsParam ps as →
    (∀ p ∈ ps, ∃ q, p = .ty q) → (∀ n a, StandsFor ps as n a → StandsFor P A n a) →
    Pointwise (InstanceOf P A) ((ps.filterMap fun | .ty p => some p.id | _ => none).map fun n => .ty (.name n)) as
  | [], [], _, _, _ => .nil
  | p :: ps, a :: as, h, ht, hP => by
    obtain ⟨q, rfl⟩ := ht p List.mem_cons_self
    cases h with
    | cons h hs =>
      exact .cons (.param _ _ (hP _ _ (.here _ _ _ _)))
        (stands_pointwise hs (fun p hp => ht p (List.mem_cons_of_mem _ hp)) fun n a k => hP n a (.there _ _ _ _ _ _ k))

/-- What `mockTrait` makes of the methods. -/
theorem mockTrait_methods {hash : List Args → Nat} {g : Generics} {v : Vis} {i : ItemImpl} {t : MockTrait}
    (h : mockTrait hash g v i = .ok t) : selfPathOf i.selfTy = .ok t.selfPath ∧ t.generics = i.generics ∧
      ∀ x ∈ t.methods, ∃ f, .fn f ∈ i.items ∧ methOf g (some t.ssName) v f.attrs f.qual f.sig = .ok x := by
  unfold mockTrait at h
  split at h
  · simp at h
  · simp only [gen_bind_ok, gen_pure_ok] at h
    obtain ⟨sp, hsp, ms, hms, rfl⟩ := h
    refine ⟨hsp, rfl, fun x hx => ?_⟩
    have hp := traitMethods_pointwise hms
    have : ∀ {R : ImplFn → Meth → Prop} {l : List ImplFn} {ms : List Meth}, Pointwise R l ms → x ∈ ms → ∃ f ∈ l, R f x := by
      intro R l ms h
      induction h with
      | nil => intro h; cases h
      | cons h _ ih =>
        intro hx
        rcases List.mem_cons.1 hx with rfl | hx
        · exact ⟨_, List.mem_cons_self, h⟩
        · obtain ⟨f, hf, e⟩ := ih hx
          exact ⟨f, List.mem_cons_of_mem _ hf, e⟩
    obtain ⟨f, hf, e⟩ := this hp hx
    refine ⟨f, ?_, e⟩
    simp only [implFns, List.mem_filterMap] at hf
    obtain ⟨it, hit, k⟩ := hf
    cases it <;> simp only [Option.some.injEq, reduceCtorEq] at k
    subst k
    exact hit

theorem methOf_steps {g : Generics} {t : Option Ident} {v : Vis} {attrs : List Attr} {q : Qual} {sig : Sig} {x : Meth}
    (h : methOf g t v attrs q sig = .ok x) : ∃ b : Builder, b.structGenerics = some g ∧ b.sig = sig ∧ build b = .ok x.fn := by
  simp only [methOf, gen_bind_ok, gen_pure_ok] at h
  obtain ⟨fn, hf, rfl⟩ := h
  exact ⟨_, rfl, rfl, hf⟩

/-- C81 for methods that are not generic.  If a trait is implemented for `Foo<args>`, where `g` are the generics of
`Foo`, then the setter `expect_foo` returns an expectation of the type that is stored in a `Foo<args>`, provided that
all parameters of `Foo` are types; and never otherwise. -/
theorem C81_instance (hash : List Args → Nat) (g : Generics) (v : Vis) (i : ItemImpl) (t : MockTrait)
    (h : mockTrait hash g v i = .ok t) (hs : Wf g) (hw : ∀ f, .fn f ∈ i.items → Wf f.sig.generics)
    (segs : List Seg) (n : Ident) (args : List GArg) (hself : i.selfTy = .path false (segs ++ [.mk n (.angle args)]))
    (fit : Pointwise FitsParam g.params args) (x : Meth) (hx : x ∈ t.methods) (hg : x.fn.isMethodGeneric = false) :
    ∃ l, t.setterArgs x = .ok l ∧
      (Pointwise (InstanceOf g.params args) x.fn.fieldArgs l ↔ ∀ p ∈ g.params, ∃ q, p = .ty q) := by
  obtain ⟨h1, -, h2⟩ := mockTrait_methods h
  obtain ⟨f, hf, e⟩ := h2 x hx
  obtain ⟨b, b1, b2, b3⟩ := methOf_steps e
  obtain ⟨s⟩ := build_steps b3
  have hS : (b.structGenerics.getD {}) = g := by rw [b1]; rfl
  have ha : t.selfPath.args = .angle args := by
    rw [hself] at h1
    simp only [selfPathOf, selfPathOf.lastOf, List.getLast?_append, List.getLast?_singleton, Option.some_or, gen_pure_ok] at h1
    rw [← h1]
    rfl
  refine ⟨List.replicate (ltCount x.fn.egenerics) (.lt "static") ++ args, ?_, ?_⟩
  · rw [MockTrait.setterArgs, hg, ha]
    simp [MockFn.expectationArgs, hg]
  · have hF := fieldArgs_eq s (by rw [hS]; exact hs) (by rw [b2]; exact hw f hf) hg
    rw [hS] at hF
    rw [hF]
    constructor
    · intro k
      have := pointwise_length k
      have hl := pointwise_length fit
      simp only [List.length_append, List.length_replicate, List.length_map] at this
      exact (typeParams_short g).2 (by omega)
    · intro k
      exact pointwise_append (pointwise_replicate .static _) (stands_pointwise fit k fun _ _ h => h)

/-- C81: it always succeeds to find the type that a setter returns. -/
theorem C81_total (t : MockTrait) (x : Meth) : ∃ l, t.setterArgs x = .ok l := by
  unfold MockTrait.setterArgs MockFn.expectationArgs
  split
  · rename_i l h
    split at h
    · cases h
    · rename_i hg
      rw [if_neg hg]
      exact ⟨_, rfl⟩
  · exact ⟨_, rfl⟩

theorem name_mentions (n : Ident) : MentionsName n (leaves (.name n)) :=
  ⟨_, by simp only [Ty.name, Seg.of, leaves, leavesSegs, leavesSeg, leavesArgs, List.append_nil, List.mem_singleton]; rfl⟩

/-- The method's generics come from its signature. -/
theorem call_own {b : Builder} {f : MockFn} (s : Steps b f) (hw : Wf b.sig.generics) (n : Ident)
    (h : HasTyParam f.callGenerics n) : HasTyParam b.sig.generics n := by
  rw [(split_typeParams (steps_wf s hw) s.mgen).2, has_key, (supersuperfyGenerics_keys s.gens).1, ← has_key] at h
  have hp := s.prep
  cases hc : b.concretize with
  | true =>
    simp only [prepare, hc, if_true, concretizeArgs, gen_bind_ok, gen_pure_ok, Prod.mk.injEq] at hp
    obtain ⟨m, -, hm, -, outargs, -, calls, -, ins, -, hdg, -⟩ := hp
    rw [← hdg] at h
    obtain ⟨p, hp, -⟩ := h
    cases hp
  | false =>
    simp only [prepare, hc, Bool.false_eq_true, if_false, gen_bind_ok, gen_pure_ok, Prod.mk.injEq] at hp
    obtain ⟨⟨x, y, z⟩, hd, hx, -, -, -⟩ := hp
    dsimp only at hx
    subst hx
    obtain ⟨p, hp, e⟩ := h
    exact ⟨p, ((minus_mem (C50_closures_partial _ _ _ _ _ hd).1 _).1 hp).1, e⟩

/-- C81 for scopes.  Let `n` be a type parameter of the mock struct that the method itself does not declare.  It is
declared wherever it is used in the `impl`s of the trait, if and only if these declare it too (as in
`impl<T> Tr for Foo<T>`), or Mockall does not use it there: for methods that are neither static nor generic. -/
theorem C81_scope (hash : List Args → Nat) (g : Generics) (v : Vis) (i : ItemImpl) (t : MockTrait)
    (h : mockTrait hash g v i = .ok t) (hs : Wf g) (hw : ∀ f, .fn f ∈ i.items → Wf f.sig.generics)
    (segs : List Seg) (m : Ident) (args : List GArg) (hself : i.selfTy = .path false (segs ++ [.mk m (.angle args)]))
    (x : Meth) (hx : x ∈ t.methods) (n : Ident) (hn : HasTyParam g n)
    (hm : ¬ HasTyParam x.fn.sig.generics n) :
    (∀ s ∈ t.sites x, Site.mentions s n → Site.declaresTy s n) ↔
      (x.fn.isStatic = true ∨ x.fn.isMethodGeneric = true → HasTyParam i.generics n) := by
  obtain ⟨h1, hgen, h2⟩ := mockTrait_methods h
  obtain ⟨f, hf, e⟩ := h2 x hx
  obtain ⟨b, b1, b2, b3⟩ := methOf_steps e
  obtain ⟨s⟩ := build_steps b3
  have hS : (b.structGenerics.getD {}) = g := by rw [b1]; rfl
  have ha : t.selfPath.args = .angle args := by
    rw [hself] at h1
    simp only [selfPathOf, selfPathOf.lastOf, List.getLast?_append, List.getLast?_singleton, Option.some_or, gen_pure_ok] at h1
    rw [← h1]
    rfl
  obtain ⟨w1, t1⟩ := split_typeParams (by rw [hS]; exact hs) s.sgen
  rw [hS] at t1
  have ht : HasTyParam x.fn.typeGenerics n := (t1 n).2 hn
  have hc : ¬ HasTyParam x.fn.callGenerics n := by
    intro k
    have := call_own s (by rw [b2]; exact hw f hf) n k
    rw [b2, ← (methOf_sig e).2.2.2.2.1] at this
    exact hm this
  have w2 : Weak x.fn.callGenerics := (split_typeParams (steps_wf s (by rw [b2]; exact hw f hf)) s.mgen).1
  have he : HasTyParam x.fn.egenerics n := by
    rw [has_key, s.egen, merge_mem_keys (merge_weak (ltsToGenerics_weak _)) (ltsToGenerics_weak _),
      merge_mem_keys (by rw [s.cgen]; exact merge_weak w2) (ltsToGenerics_weak _), s.cgen, merge_mem_keys w1 w2, ← has_key]
    exact .inl (.inl (.inl ht))
  have use : ∀ {s : Site} {l : Generics}, s.tys = (typeParams l).map .name → HasTyParam l n → Site.mentions s n :=
    fun e k => .inr ⟨.name n, by
      rw [e]
      exact List.mem_append_left _ (List.mem_map_of_mem ((typeParams_has _ _).2 k)), name_mentions n⟩
  have own : ∀ {s : Site} {a : Generics} {l : List Generics}, s.outer = a :: l → s.generics = [] → (∀ c ∈ l, ¬ HasTyParam c n) →
      Site.declaresTy s n → HasTyParam a n := by
    rintro s a l e e' hl ⟨c, hc, k⟩
    rw [e, e', List.append_nil] at hc
    rcases List.mem_cons.1 hc with rfl | hc
    · exact k
    · exact absurd k (hl c hc)
  have dec : ∀ {s : Site} {a : Generics} {l : List Generics}, s.outer = a :: l → HasTyParam a n → Site.declaresTy s n := by
    intro s a l e k
    exact ⟨a, List.mem_append_left _ (by rw [e]; exact List.mem_cons_self), k⟩
  rw [← hgen]
  constructor
  · intro H hk
    refine own (l := [x.fn.sig.generics]) rfl rfl (by simpa using hm) (H _ List.mem_cons_self (use rfl ?_))
    rw [if_pos (by rw [Bool.or_eq_true]; exact hk.symm)]
    exact he
  · intro H y hy hmen
    by_cases hk : x.fn.isStatic = true ∨ x.fn.isMethodGeneric = true
    · have := H hk
      rw [MockTrait.sites] at hy
      rcases List.mem_cons.1 hy with rfl | hy
      · exact dec rfl this
      · split at hy <;> rw [List.mem_singleton] at hy <;> subst hy <;> exact dec rfl this
    · rw [not_or, Bool.not_eq_true, Bool.not_eq_true] at hk
      exfalso
      rw [MockTrait.sites, hk.1, hk.2, ha] at hy
      rcases List.mem_cons.1 hy with rfl | hy
      · rcases hmen with ⟨_, hg, _⟩ | ⟨ty, hty, hmen⟩
        · cases hg
        · simp only [Bool.or_self, Bool.false_eq_true, if_false, List.append_nil] at hty
          exact hc ((typeParams_has _ _).1 (names_mentions hty hmen))
      · simp only [Bool.false_eq_true, if_false, List.mem_singleton] at hy
        subst hy
        rcases hmen with ⟨_, hg, _⟩ | ⟨ty, hty, hmen⟩
        · cases hg
        · cases hty

/-! ## Examples -/

/-- A trait with a method, a static function and a generic method, that is implemented for `Foo<args>`, by an
`impl` with generics `g`. -/
def exSpecific (g : Generics) (args : List GArg) : ItemImpl where
  trait := some ⟨false, [.of "Tr"]⟩
  generics := g
  selfTy := .path false [.mk "Foo" (.angle args)]
  items := [.fn { sig := { ident := "a", inputs := [selfArg], output := .ty (.name "u8") } },
    .fn { sig := { ident := "b", inputs := [], output := .ty (.name "u8") } },
    .fn { sig := { ident := "c", generics := { angle := true, params := [.ty { id := "U" }] }, inputs := [selfArg],
                   output := .ty (.name "u8") } }]

/-- `<'a, T>` or `<T>`. -/
def exParams (lt : Bool) : Generics :=
  { angle := true, params := (if lt then [.lt ⟨"a", []⟩] else []) ++ [.ty { id := "T" }] }

/-- Of each method: static, generic, the type of the field and the one that the setter returns. -/
def shownSetters (t : MockTrait) : List (Bool × Bool × List GArg × List GArg) :=
  t.methods.map fun x => (x.fn.isStatic, x.fn.isMethodGeneric, x.fn.fieldArgs, (t.setterArgs x).toOption.getD [])

/-- C81: for `impl Tr for Foo<u32>`, the field of the method has type `Expectations<T>` and its setter returns an
`Expectation<u32>`.  The setter of the generic method returns an `Expectation<T, U>`, but there is no `T`. -/
theorem C81_inhabited : ∃ t, mockTrait (fun _ => 0) (exParams false) .inherited (exSpecific {} [.ty (.name "u32")]) = .ok t ∧
    shownSetters t =
      [(false, false, [.ty (.name "T")], [.ty (.name "u32")]),
       (true, false, [.ty (.name "T")], [.ty (.name "u32")]),
       (false, true, [.ty (.name "T"), .ty (.name "U")], [.ty (.name "T"), .ty (.name "U")])] ∧
    ∀ x ∈ t.methods, x.fn.isStatic = true ∨ x.fn.isMethodGeneric = true →
      ∃ s ∈ t.sites x, Site.mentions s "T" ∧ ¬ Site.declaresTy s "T" := by
  obtain ⟨t, h, e⟩ := yields
    (x := mockTrait (fun _ => 0) (exParams false) .inherited (exSpecific {} [.ty (.name "u32")])) (f := shownSetters)
    (b := [(false, false, [.ty (.name "T")], [.ty (.name "u32")]),
       (true, false, [.ty (.name "T")], [.ty (.name "u32")]),
       (false, true, [.ty (.name "T"), .ty (.name "U")], [.ty (.name "T"), .ty (.name "U")])]) (by decide +kernel)
  refine ⟨t, h, e, fun x hx k => ?_⟩
  have hw : ∀ f, .fn f ∈ (exSpecific {} [.ty (.name "u32")]).items → Wf f.sig.generics := by
    intro f hf
    simp only [exSpecific, List.mem_cons, ImplItem.fn.injEq, List.not_mem_nil, or_false] at hf
    rcases hf with rfl | rfl | rfl <;> intro k <;> simp_all
  have hm : ¬ HasTyParam x.fn.sig.generics "T" := by
    obtain ⟨f, hf, e⟩ := (mockTrait_methods h).2.2 x hx
    rw [(methOf_sig e).2.2.2.2.1]
    simp only [exSpecific, List.mem_cons, ImplItem.fn.injEq, List.not_mem_nil, or_false] at hf
    rcases hf with rfl | rfl | rfl <;> rintro ⟨p, hp, he⟩ <;> simp at hp
    subst hp
    exact absurd he (by decide +kernel)
  have := C81_scope (fun _ => 0) (exParams false) .inherited _ t h (by intro k; cases k) hw [] "Foo" _ rfl x hx "T"
    ⟨{ id := "T" }, by simp [exParams], rfl⟩ hm
  apply Classical.byContradiction
  intro hn
  obtain ⟨p, hp, -⟩ := this.1 (fun s hs hm => Classical.byContradiction fun hd => hn ⟨s, hs, hm, hd⟩) k
  cases hp

/-- C81: if the mock struct has a lifetime, the setter's return type has one argument too many (the
lifetime itself), as in `C81_lifetime_inhabited`, where it is `Expectation<'a, u32>` instead of `Expectation<u32>`. -/
theorem C81_lifetime (hash : List Args → Nat) (v : Vis) (i : ItemImpl) (t : MockTrait) (g : Generics) (p : LtParam)
    (hp : .lt p ∈ g.params) (h : mockTrait hash g v i = .ok t) (hs : Wf g)
    (hw : ∀ f, .fn f ∈ i.items → Wf f.sig.generics) (segs : List Seg) (n : Ident) (args : List GArg)
    (hself : i.selfTy = .path false (segs ++ [.mk n (.angle args)])) (fit : Pointwise FitsParam g.params args) (x : Meth)
    (hx : x ∈ t.methods) (hg : x.fn.isMethodGeneric = false) :
    ∃ l, t.setterArgs x = .ok l ∧ ¬ Pointwise (InstanceOf g.params args) x.fn.fieldArgs l := by
  obtain ⟨l, h1, h2⟩ := C81_instance hash g v i t h hs hw segs n args hself fit x hx hg
  refine ⟨l, h1, fun k => ?_⟩
  obtain ⟨q, e⟩ := h2.1 k _ hp
  cases e

/-- Such a trait. -/
theorem C81_lifetime_inhabited : ∃ t, mockTrait (fun _ => 0) (exParams true) .inherited
      (exSpecific { angle := true, params := [.lt ⟨"a", []⟩] } [.lt "a", .ty (.name "u32")]) = .ok t ∧
    (shownSetters t).take 1 = [(false, false, [.ty (.name "T")], [.lt "a", .ty (.name "u32")])] ∧
    Pointwise FitsParam (exParams true).params [.lt "a", .ty (.name "u32")] := by
  obtain ⟨t, h, e⟩ := yields (x := mockTrait (fun _ => 0) (exParams true) .inherited
      (exSpecific { angle := true, params := [.lt ⟨"a", []⟩] } [.lt "a", .ty (.name "u32")]))
    (f := fun t => (shownSetters t).take 1)
    (b := [(false, false, [.ty (.name "T")], [.lt "a", .ty (.name "u32")])]) (by decide +kernel)
  exact ⟨t, h, e, .cons (.lt _ _) (.cons (.ty _ _) .nil)⟩

end Mockall.Props
