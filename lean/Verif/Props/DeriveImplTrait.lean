import Verif.Props.DeriveMockable
import Verif.Props.DeriveBuilt
import Verif.Props.DeriveModule

/-! # C93: functions that return `impl Trait` -/

namespace Mockall.Props

open Derive Spec

/-- One of the bounds is `Future` or `Stream`. -/
def Pinned (bs : List Bound) : Prop := ∃ b ∈ bs, PinnedTrait b

/-- `Box<dyn bs>`, or `Pin<Box<dyn bs>>` if `p`. -/
inductive BoxedAs (p : Prop) (bs : List Bound) : Ty → Prop
  | boxed (h : ¬ p) : BoxedAs p bs (.path false [.mk "Box" (.angle [.ty (.traitObject bs)])])
  | pinned (h : p) : BoxedAs p bs (.path true [.mk "std" .none, .mk "pin" .none,
      .mk "Pin" (.angle [.ty (.path false [.mk "Box" (.angle [.ty (.traitObject bs)])])])])

/-- What expectations of the function return: values of the type `t` that `returning` and `return_once` are given, as
they are. -/
structure ReturnsOwned (levels : Nat) (t : Ty) (x : MockFn) : Prop where
  kind : x.kind = .static
  owned : x.ownedOutput = x.output
  unboxed : x.boxed = false
  means : MeansSame levels t x.output

theorem path_owned {b : Builder} {x : MockFn} (h : build b = .ok x) {lead : Bool} {l : List Seg}
    (ho : b.sig.output = .ty (.path lead l)) : ReturnsOwned b.levels (.path lead l) x := by
  obtain ⟨s⟩ := build_steps h
  have e := s.out
  rw [ho] at e
  simp only [buildOutput, gen_bind_ok, gen_pure_ok] at e
  obtain ⟨t', ht', e⟩ := e
  have hp : ∃ lead' l', t' = .path lead' l' := by
    simp only [supersuperfy, gen_bind_ok, gen_pure_ok] at ht'
    first
      | exact ⟨_, _, ht'.symm⟩
      | (obtain ⟨_, _, k⟩ := ht'; exact ⟨_, _, k.symm⟩)
      | (obtain ⟨_, _, _, _, k⟩ := ht'; exact ⟨_, _, k.symm⟩)
  obtain ⟨lead', l', rfl⟩ := hp
  simp only [outputs, destrify, dedynify, ownify, Prod.mk.injEq] at e
  obtain ⟨e1, e2, e3⟩ := e
  have fl := s.flags
  rw [← e1] at fl
  simp only [returnFlags, Prod.mk.injEq] at fl
  exact ⟨by rw [MockFn.kind, ← fl.1, ← fl.2]; rfl, by rw [← e1, ← e2], e3.symm,
    C41_output_partial b x h _ ho fun _ _ _ k => by cases k⟩

theorem BoxedAs.path {p : Prop} {bs : List Bound} {t : Ty} (h : BoxedAs p bs t) : ∃ lead l, t = .path lead l := by
  cases h <;> exact ⟨_, _, rfl⟩

theorem build_sig_output {b : Builder} {x : MockFn} (h : build b = .ok x) : x.sig.output = b.sig.output := by
  obtain ⟨s⟩ := build_steps h
  have hp := s.prep
  cases hc : b.concretize with
  | true =>
    simp only [prepare, hc, if_true, concretizeArgs, gen_bind_ok, gen_pure_ok, Prod.mk.injEq] at hp
    obtain ⟨_, -, _, -, _, -, _, -, _, -, -, -, -, k⟩ := hp
    rw [← k]
  | false =>
    simp only [prepare, hc, Bool.false_eq_true, if_false, gen_bind_ok, gen_pure_ok, Prod.mk.injEq] at hp
    obtain ⟨_, -, -, -, -, k⟩ := hp
    rw [← k]

/-- C93 for methods: if `impl bs` is returned, then expectations return a box of a trait object with these bounds, in
which `Self` and anonymous lifetimes are replaced; it is pinned iff one of the bounds is `Future` or `Stream`.  (`Visible`
excludes `Self` and `'_` where the macro does not look, see C42 and C43.)  The type returned by the method itself is the
same. -/
theorem C93_method_partial (name : Ident) (g : Generics) (f f' : ImplFn) (b : Builder) (x : MockFn) (bs : List Bound)
    (hv : Visible id (selfRewrite name (paramArgs g.params)) f.sig) (ho : f.sig.output = .ty (.implTrait bs))
    (h : mockableMethod name g f = .ok f') (hb : b.sig = f'.sig) (hx : build b = .ok x) :
    ∃ t, BoxedAs (Pinned bs) (rewriteBounds anonRewrite (rewriteBounds (selfRewrite name (paramArgs g.params)) bs)) t ∧
      ReturnsOwned b.levels t x ∧ f'.sig.output = .ty t ∧ x.sig.output = .ty t := by
  obtain ⟨q, hq, e⟩ := (mockableMethod_ok hv h).2.2.2.output
  rw [ho] at hq
  have key : ∃ t, BoxedAs (Pinned bs)
      (rewriteBounds anonRewrite (rewriteBounds (selfRewrite name (paramArgs g.params)) bs)) t ∧
      f'.sig.output = .ty t := by
    cases hq with
    | same _ k => exact absurd rfl (k bs)
    | boxed _ k =>
      refine ⟨_, .boxed fun ⟨b, hb, k'⟩ => k b hb k', ?_⟩
      rw [e]
      simp [boxOf, rewriteRet, rewrite, rewriteSegs, rewriteSeg, rewriteArgs, rewriteGArgs, rewriteGArg, selfRewrite,
        anonRewrite]
    | pinned _ k =>
      refine ⟨_, .pinned k, ?_⟩
      rw [e]
      simp [pinOf, boxOf, rewriteRet, rewrite, rewriteSegs, rewriteSeg, rewriteArgs, rewriteGArgs, rewriteGArg,
        selfRewrite, anonRewrite]
  obtain ⟨t, k1, k2⟩ := key
  obtain ⟨lead, l, rfl⟩ := k1.path
  exact ⟨_, k1, path_owned hx (by rw [hb, k2]), k2, by rw [build_sig_output hx, hb, k2]⟩

/-- The same for the methods of a trait with `#[automock]`, once associated types are substituted. -/
theorem C93_trait_partial (name : Ident) (g : Generics) (f f' : TraitFn) (b : Builder) (x : MockFn) (bs : List Bound)
    (hv : Visible id (selfRewrite name (paramArgs g.params)) f.sig) (ho : f.sig.output = .ty (.implTrait bs))
    (h : mockableTraitMethod name g f = .ok f') (hb : b.sig = f'.sig) (hx : build b = .ok x) :
    ∃ t, BoxedAs (Pinned bs) (rewriteBounds anonRewrite (rewriteBounds (selfRewrite name (paramArgs g.params)) bs)) t ∧
      ReturnsOwned b.levels t x ∧ f'.sig.output = .ty t ∧ x.sig.output = .ty t := by
  have h' := mockableTraitMethod_eq name g f .inherited
  rw [h] at h'
  exact C93_method_partial name g (tif2iif f .inherited) (tif2iif f' .inherited) b x bs hv ho h' hb hx

/-- The same for the functions of a module, in which nothing is replaced. -/
theorem C93_function (f f' : ModFn) (b : Builder) (x : MockFn) (bs : List Bound)
    (ho : f.sig.output = .ty (.implTrait bs)) (h : mockableFn f = .ok f') (hb : b.sig = f'.sig) (hx : build b = .ok x) :
    ∃ t, BoxedAs (Pinned bs) bs t ∧ ReturnsOwned b.levels t x ∧ f'.sig.output = .ty t ∧ x.sig.output = .ty t := by
  simp only [mockableFn, gen_bind_ok, gen_pure_ok] at h
  obtain ⟨_, -, rfl⟩ := h
  have key : ∃ t, BoxedAs (Pinned bs) bs t ∧ deimplify f.sig.output = .ty t := by
    have hq := deimplify_returns f.sig.output
    rw [ho] at hq ⊢
    generalize deimplify _ = q at hq ⊢
    cases hq with
    | same _ k => exact absurd rfl (k bs)
    | boxed _ k => exact ⟨_, .boxed fun ⟨b, hb, k'⟩ => k b hb k', rfl⟩
    | pinned _ k => exact ⟨_, .pinned k, rfl⟩
  obtain ⟨t, k1, k2⟩ := key
  obtain ⟨lead, l, rfl⟩ := k1.path
  exact ⟨_, k1, path_owned hx (by rw [hb]; exact k2), k2, by rw [build_sig_output hx, hb]; exact k2⟩

/-- The documentation says that the signature of the mock method does not change.  It does, for every method that returns
`impl Trait`. -/
theorem C93_signature_changes (name : Ident) (g : Generics) (f f' : ImplFn) (b : Builder) (x : MockFn) (bs : List Bound)
    (hv : Visible id (selfRewrite name (paramArgs g.params)) f.sig) (ho : f.sig.output = .ty (.implTrait bs))
    (h : mockableMethod name g f = .ok f') (hb : b.sig = f'.sig) (hx : build b = .ok x) :
    x.sig.output ≠ f.sig.output := by
  obtain ⟨t, k, -, -, e⟩ := C93_method_partial name g f f' b x bs hv ho h hb hx
  rw [e, ho]
  cases k <;> exact fun k => by cases k

/-! ## Examples -/

/-- `fn foo(&self) -> impl bs` -/
def exImpl (bs : List Bound) : ImplFn where
  sig := { ident := "foo", inputs := [.receiver (some none) false false (.name "Self")],
           output := .ty (.implTrait bs) }

/-- `Future<Output = Self>` -/
def futureSelf : Bound := .trait false [] false [.mk "Future" (.angle [.assocTy "Output" (.name "Self")])]

/-- `n` as a bound -/
def traitNamed (n : Ident) : Bound := .trait false [] false [.of n]

/-- The types that the method of the mock returns, and that its expectations do. -/
def implReturns (bs : List Bound) : Option (Ret × Ty) :=
  match mockableMethod "MockFoo" {} (exImpl bs) with
  | .ok f => match build { sig := f.sig, levels := 2 } with
    | .ok x => some (x.sig.output, x.output)
    | .error _ => none
  | .error _ => none

theorem exImpl_visible (bs : List Bound) (h : ∀ q, Returns (.ty (.implTrait bs)) (.ty q) →
    All NotSelf (unseen selfBlind q) ∧ All NotAnon (unseen anonBlind (rewrite (selfRewrite "MockFoo" .none) q))) :
    Visible id (selfRewrite "MockFoo" (paramArgs [])) (exImpl bs).sig where
  arg a p u hu := by simp [exImpl] at hu
  receiver r m u hu := by simp [exImpl] at hu
  output u q hu hq := by cases hu; exact h q hq

theorem implReturns_some {bs : List Bound} {r : Ret} {t : Ty} (h : implReturns bs = some (r, t)) :
    ∃ f' x, mockableMethod "MockFoo" {} (exImpl bs) = .ok f' ∧ build { sig := f'.sig, levels := 2 } = .ok x ∧
      x.sig.output = r ∧ x.output = t := by
  unfold implReturns at h
  split at h
  · rename_i f hf
    split at h
    · rename_i x hx
      cases h
      exact ⟨f, x, hf, hx, rfl, rfl⟩
    · cases h
  · cases h

/-- `Future<Output = MockFoo>` -/
def futureMock : Bound := .trait false [] false [.mk "Future" (.angle [.assocTy "Output" (.name "MockFoo")])]

/-- `C93_method_partial` applies to `impl Future<Output = Self> + Send`; the box is pinned. -/
theorem C93_inhabited : ∃ f' x, mockableMethod "MockFoo" {} (exImpl [futureSelf, traitNamed "Send"]) = .ok f' ∧
    build { sig := f'.sig, levels := 2 } = .ok x ∧
    Visible id (selfRewrite "MockFoo" (paramArgs [])) (exImpl [futureSelf, traitNamed "Send"]).sig ∧
    Pinned [futureSelf, traitNamed "Send"] ∧
    x.sig.output = .ty (pinOf (boxOf [futureMock, traitNamed "Send"])) ∧
    x.output = pinOf (boxOf [futureMock, traitNamed "Send"]) := by
  obtain ⟨f', x, h1, h2, h3, h4⟩ := implReturns_some (bs := [futureSelf, traitNamed "Send"])
    (r := .ty (pinOf (boxOf [futureMock, traitNamed "Send"]))) (t := pinOf (boxOf [futureMock, traitNamed "Send"]))
    (by decide +kernel)
  have hp : PinnedTrait futureSelf := ⟨false, [], false, [], "Future", _, rfl, .inl rfl⟩
  refine ⟨f', x, h1, h2, exImpl_visible _ fun q hq => ?_, ⟨_, List.mem_cons_self, hp⟩, h3, h4⟩
  cases hq with
  | same _ k => exact absurd rfl (k _)
  | boxed _ k => exact absurd hp (k _ List.mem_cons_self)
  | pinned _ k =>
    have e1 : unseen selfBlind (pinOf (boxOf [futureSelf, traitNamed "Send"])) = [] := by decide +kernel
    have e2 : ∀ y ∈ unseen anonBlind (rewrite (selfRewrite "MockFoo" .none)
        (pinOf (boxOf [futureSelf, traitNamed "Send"]))), y ≠ .lt "_" := by decide +kernel
    exact ⟨by rw [e1]; exact fun y hy => (List.not_mem_nil hy).elim, e2⟩

/-- `impl Debug` is boxed only. -/
example : implReturns [traitNamed "Debug"] = some (.ty (boxOf [traitNamed "Debug"]), boxOf [traitNamed "Debug"]) := by
  decide +kernel

/-- `impl Debug + '_` keeps the anonymous lifetime, unlike other return types: the macro does not look at the bounds of trait
objects for it. -/
theorem C93_anonymous : ∃ f' x, mockableMethod "MockFoo" {} (exImpl [traitNamed "Debug", .lt "_"]) = .ok f' ∧
    build { sig := f'.sig, levels := 2 } = .ok x ∧ x.output = boxOf [traitNamed "Debug", .lt "_"] := by
  obtain ⟨f', x, h1, h2, -, h4⟩ := implReturns_some (bs := [traitNamed "Debug", .lt "_"])
    (r := .ty (boxOf [traitNamed "Debug", .lt "_"])) (t := boxOf [traitNamed "Debug", .lt "_"]) (by decide +kernel)
  exact ⟨f', x, h1, h2, h4⟩

end Mockall.Props
