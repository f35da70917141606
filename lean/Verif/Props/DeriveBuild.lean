import Verif.Spec.Build
import Verif.Props.DeriveClosures
import Verif.Props.DerivePaths
import Verif.Props.DeriveMerge
import Verif.Props.DeriveSplit

/-! # C53, C54, C59, C60: what is built from a signature -/

namespace Mockall.Props

open Derive Spec

/-- The steps of `build`. -/
structure Steps (b : Builder) (f : MockFn) where
  dg : Generics
  inputs : List FnArg
  dg' : Generics
  sal : List LtParam
  srl : List LtParam
  mal : List LtParam
  mrl : List LtParam
  prep : prepare b = .ok (dg, inputs, f.callExprs, f.sig)
  args : buildArgs b.levels inputs = .ok (f.args, f.isStatic)
  out : buildOutput b.levels b.sig.output = .ok (f.output, f.ownedOutput, f.boxed)
  gens : supersuperfyGenerics b.levels dg = .ok dg'
  flags : returnFlags f.output = (f.returnRef, f.returnRefmut)
  stat : f.isStatic = true → f.returnRef = false ∧ f.returnRefmut = false
  sgen : splitLifetimes (b.structGenerics.getD {}) inputs (.ty f.ownedOutput) =
    .ok (f.typeGenerics, sal, srl)
  mgen : splitLifetimes dg' inputs (.ty f.ownedOutput) = .ok (f.callGenerics, mal, mrl)
  cgen : f.cgenerics = mergeGenerics f.typeGenerics f.callGenerics
  egen : f.egenerics = mergeGenerics (mergeGenerics f.cgenerics (ltsToGenerics srl)) (ltsToGenerics mrl)
  params : f.fnParams = typeParams f.egenerics
  alts : f.alifetimes = (sal ++ mal).eraseDups
  cvis : f.callVis = expectationVisibility b.vis (b.callLevels.getD b.levels)
  pvis : f.privmodVis = expectationVisibility b.vis b.levels

theorem build_steps {b : Builder} {f : MockFn} (h : build b = .ok f) : Nonempty (Steps b f) := by
  simp only [build, gen_bind_ok, gen_pure_ok] at h
  obtain ⟨⟨dg, inputs, ce, sig⟩, h1, ⟨args, st⟩, h2, ⟨o, oo, bx⟩, h3, dg', h4, _, h5, ⟨tg, sal, srl⟩, h6,
    ⟨cg, mal, mrl⟩, h7, rfl⟩ := h
  exact ⟨{
    dg := dg, inputs := inputs, dg' := dg', sal := sal, srl := srl, mal := mal, mrl := mrl
    prep := h1, args := h2, out := h3, gens := h4, flags := rfl
    stat := by
      intro hs
      dsimp only at hs
      subst hs
      simp only [rejectStaticRef, Bool.true_and] at h5
      split at h5
      · simp at h5
      · rename_i hn; simpa using hn
    sgen := h6, mgen := h7, cgen := rfl, egen := rfl, params := rfl, alts := rfl, cvis := rfl, pvis := rfl }⟩

/-! ## Kinds -/

theorem outputs_ref (t : Ty) (lt : Option Lt) (m : Bool) :
    (∃ e, (outputs t).1 = .ref lt m e) ↔ ∃ e, t = .ref lt m e := by
  have hd : ∀ t, (∃ e, (dedynify t).1 = .ref lt m e) ↔ ∃ e, t = .ref lt m e := by
    intro t
    rw [dedynify.eq_def]
    split
    · split <;> simp
    · simp
  have hs : (∃ e, destrify t = .ref lt m e) ↔ ∃ e, t = .ref lt m e := by
    rw [destrify.eq_def]
    split
    · repeat' split
      all_goals simp
    · simp
  rw [outputs, hd, hs]

theorem supersuperfy_ref {n : Nat} {t t' : Ty} (h : supersuperfy n t = .ok t') (lt : Option Lt) (m : Bool) :
    (∃ e, t' = .ref lt m e) ↔ ∃ e, t = .ref lt m e := by
  cases t <;> simp only [supersuperfy, gen_bind_ok, gen_pure_ok, gen_throw_ok] at h
  all_goals first
    | (obtain ⟨_, _, rfl⟩ := h; simp)
    | (obtain ⟨_, _, _, _, rfl⟩ := h; simp)
    | (subst h; simp)
    | skip

theorem flags_iff (t : Ty) (m : Bool) :
    (if m then (returnFlags t).2 else (returnFlags t).1) = true ↔
      ∃ lt, lt ≠ some "static" ∧ ∃ e, t = .ref lt m e := by
  cases t with
  | ref lt m' e =>
    by_cases h : lt = some "static"
    · subst h
      have : ¬ ∃ lt, lt ≠ some "static" ∧ ∃ e', Ty.ref (some "static") m' e = .ref lt m e' := by
        rintro ⟨lt, hl, _, he⟩
        cases he
        exact hl rfl
      cases m <;> simp [returnFlags] at this ⊢ <;> exact this
    · cases m <;> cases m' <;> simp [returnFlags, h]
  | _ => cases m <;> simp [returnFlags]

theorem output_ref {b : Builder} {f : MockFn} (s : Steps b f) (m : Bool) :
    (if m then f.returnRefmut else f.returnRef) = true ↔ RefReturn m b.sig.output := by
  have hf := flags_iff f.output m
  rw [s.flags] at hf
  rw [hf]
  have ho := s.out
  cases hr : b.sig.output with
  | unit =>
    rw [hr] at ho
    simp only [buildOutput, gen_pure_ok, Prod.mk.injEq] at ho
    rw [← ho.1]
    simp [RefReturn]
  | ty t =>
    rw [hr] at ho
    simp only [buildOutput, gen_bind_ok, gen_pure_ok] at ho
    obtain ⟨t', ht, ho⟩ := ho
    have : f.output = (outputs t').1 := by rw [ho]
    simp only [this, outputs_ref, supersuperfy_ref ht, RefReturn, Ret.ty.injEq]
    constructor
    · rintro ⟨lt, hl, e, rfl⟩; exact ⟨lt, e, rfl, hl⟩
    · rintro ⟨lt, e, rfl, hl⟩; exact ⟨lt, hl, e, rfl⟩

theorem refReturn_unique {r : Ret} (h : RefReturn true r) (k : RefReturn false r) : False := by
  obtain ⟨_, _, rfl, _⟩ := h
  obtain ⟨_, _, e, _⟩ := k
  cases e

theorem isMethod_cons_typed {as p t l} : IsMethod (.typed as p t :: l) ↔ IsMethod l := by
  simp [IsMethod]

theorem isMethod_pointwise {g : Generics} {l m : List FnArg} (h : Pointwise (ArgBoxes g) l m) :
    IsMethod m ↔ IsMethod l := by
  induction h with
  | nil => rfl
  | cons h _ ih =>
    cases h with
    | receiver => exact ⟨fun _ => ⟨_, _, _, _, List.mem_cons_self⟩, fun _ => ⟨_, _, _, _, List.mem_cons_self⟩⟩
    | typed => rw [isMethod_cons_typed, isMethod_cons_typed, ih]

theorem buildArgs_static {n : Nat} : ∀ {l : List FnArg} {as : List BArg} {st : Bool},
    buildArgs n l = .ok (as, st) → (st = true ↔ ¬ IsMethod l)
  | [], as, st, h => by
    simp only [buildArgs, gen_pure_ok, Prod.mk.injEq] at h
    simp [IsMethod, ← h.2]
  | .typed a p t :: l, as, st, h => by
    simp only [buildArgs, gen_bind_ok, gen_pure_ok, Prod.mk.injEq] at h
    obtain ⟨_, _, ⟨as', st'⟩, h, -, rfl⟩ := h
    rw [isMethod_cons_typed]
    exact buildArgs_static h
  | .receiver r m c t :: l, as, st, h => by
    simp only [buildArgs, gen_bind_ok, gen_pure_ok, Prod.mk.injEq] at h
    obtain ⟨_, _, -, rfl⟩ := h
    simp only [Bool.false_eq_true, false_iff, Classical.not_not]
    exact ⟨r, m, c, t, List.mem_cons_self⟩

theorem concretizeArgs_method {hm : ConcreteMap} : ∀ {l m : List FnArg},
    l.mapM (concretizeArg hm) = .ok m → (IsMethod m ↔ IsMethod l)
  | [], m, h => by
    simp only [List.mapM_nil, gen_pure_ok] at h
    subst h; rfl
  | a :: l, m, h => by
    simp only [List.mapM_cons, gen_bind_ok, gen_pure_ok] at h
    obtain ⟨b, hb, m', hm', rfl⟩ := h
    cases a with
    | receiver =>
      simp only [concretizeArg, gen_pure_ok] at hb
      subst hb
      exact ⟨fun _ => ⟨_, _, _, _, List.mem_cons_self⟩, fun _ => ⟨_, _, _, _, List.mem_cons_self⟩⟩
    | typed as p t =>
      simp only [concretizeArg, gen_bind_ok] at hb
      obtain ⟨p', -, hb⟩ := hb
      have : ∃ t', b = .typed [] p' t' := by
        split at hb
        · simp only [gen_pure_ok] at hb; exact ⟨_, hb.symm⟩
        · simp only [gen_pure_ok] at hb; exact ⟨_, hb.symm⟩
      obtain ⟨t', rfl⟩ := this
      rw [isMethod_cons_typed, isMethod_cons_typed, concretizeArgs_method hm']

theorem prepare_method {b : Builder} {dg : Generics} {inputs : List FnArg} {ce : List CallArg} {sig : Sig}
    (h : prepare b = .ok (dg, inputs, ce, sig)) : IsMethod inputs ↔ IsMethod b.sig.inputs := by
  unfold prepare at h
  split at h
  · simp only [concretizeArgs, gen_bind_ok, gen_pure_ok, Prod.mk.injEq] at h
    obtain ⟨_, -, _, -, _, h, _, -, _, -, -, rfl, -⟩ := h
    exact concretizeArgs_method h
  · simp only [gen_bind_ok, gen_pure_ok, Prod.mk.injEq] at h
    obtain ⟨⟨x, y, z⟩, h, -, rfl, -⟩ := h
    exact isMethod_pointwise (C50_closures_partial _ _ _ _ _ h).2.2.1

/-- C59: which sort of expectation a function gets depends on the return type only: shared for `&T`,
mutable for `&mut T`, unless `'static`, and owned for all else.  `call_mut` is used for the mutable sort
only.  It counts as static iff it has no `self`; then it does not return such a reference. -/
theorem C59_kind (b : Builder) (f : MockFn) (h : build b = .ok f) :
    (f.kind = .ref ↔ RefReturn false b.sig.output) ∧
    (f.kind = .refMut ↔ RefReturn true b.sig.output) ∧
    (f.kind = .static ↔ ∀ m, ¬ RefReturn m b.sig.output) ∧
    (f.callsMut = true ↔ f.kind = .refMut) ∧
    (f.isStatic = true ↔ ¬ IsMethod b.sig.inputs) ∧
    (¬ IsMethod b.sig.inputs → f.kind = .static) := by
  obtain ⟨s⟩ := build_steps h
  have h1 := output_ref s false
  have h2 := output_ref s true
  simp only [Bool.false_eq_true, if_false, if_true] at h1 h2
  have hs := buildArgs_static s.args
  rw [prepare_method s.prep] at hs
  have hst := s.stat
  have hu : f.returnRefmut = true → f.returnRef = true → False := by
    rw [h1, h2]; exact refReturn_unique
  simp only [Bool.forall_bool, ← h1, ← h2, ← hs]
  unfold MockFn.kind MockFn.callsMut
  clear h1 h2 hs
  revert hu hst
  cases f.returnRef <;> cases f.returnRefmut <;> simp

/-- C59: a static function that returns a reference that is not `'static` is rejected. -/
theorem C59_static_rejected (b : Builder) (m : Bool) (hs : ¬ IsMethod b.sig.inputs)
    (hr : RefReturn m b.sig.output) : ¬ Gen.succeeds (build b) := by
  rintro ⟨f, h⟩
  obtain ⟨k1, k2, k3, -, -, k4⟩ := C59_kind b f h
  exact (k3.1 (k4 hs)) m hr

/-- C54, as far as it holds: if the return reference is as mutable as the receiver.  Missing: if it is not
(`C54_receiver_ignored`). -/
theorem C54_kind_partial (b : Builder) (f : MockFn) (h : build b = .ok f) :
    ((∀ m, ¬ RefReturn m b.sig.output) → f.kind = .static) ∧
    (∀ m m', Receives m b.sig.inputs → RefReturn m' b.sig.output → m = m' →
      f.kind = if m then .refMut else .ref) := by
  obtain ⟨k1, k2, k3, -, -, -⟩ := C59_kind b f h
  refine ⟨k3.2, ?_⟩
  rintro m _ - hr rfl
  cases m
  · exact k1.2 hr
  · exact k2.2 hr

theorem has_kind {b : Builder} {k : Kind} (h : (build b).toOption.map MockFn.kind = some k) :
    ∃ f, build b = .ok f ∧ f.kind = k := by
  cases hb : build b with
  | error e => rw [hb] at h; cases h
  | ok f => rw [hb] at h; exact ⟨f, rfl, by simpa [Except.toOption] using h⟩

/-- `fn foo(&mut self) -> &u32` -/
def mutShared : Builder where
  sig := { ident := "foo", inputs := [.receiver (some none) true false (.name "Self")],
           output := .ty (.ref none false (.name "u32")) }

/-- `fn foo(&self) -> &mut u32` -/
def sharedMut : Builder where
  sig := { ident := "foo", inputs := [.receiver (some none) false false (.name "Self")],
           output := .ty (.ref none true (.name "u32")) }

/-- `fn foo(&mut self) -> &u32` has the setters for shared references, and `fn foo(&self) -> &mut u32` those
for mutable ones (for which the code generated, `self.foo.call_mut(..)`, does not compile). -/
theorem C54_receiver_ignored :
    (Receives true mutShared.sig.inputs ∧ ∃ f, build mutShared = .ok f ∧ f.kind = .ref) ∧
    (Receives false sharedMut.sig.inputs ∧ ∃ f, build sharedMut = .ok f ∧ f.kind = .refMut) :=
  ⟨⟨⟨none, false, .name "Self", List.mem_singleton.2 rfl⟩, has_kind (by decide +kernel)⟩,
    ⟨none, false, .name "Self", List.mem_singleton.2 rfl⟩, has_kind (by decide +kernel)⟩

/-! ## Arguments -/

theorem buildArg_fits {n : Nat} {p : Pat} {t : Ty} {c : BArg} (h : buildArg n p t = .ok c) :
    c.name = p ∧ supersuperfy n t = .ok c.ty ∧ patIsSelf p = false ∧
    c.refPredTy = .ref none false c.predTy ∧ Coerces (exprTy c.byRef c.ty) c.refPredTy ∧
    ((∃ lt m, c.ty = .ref lt m c.predTy) ∨ (c.ty = c.predTy ∧ ∀ lt m e, c.ty ≠ .ref lt m e)) := by
  simp only [buildArg, gen_bind_ok] at h
  obtain ⟨aty, ht, h⟩ := h
  split at h
  · simp at h
  · rename_i hs
    have hs : patIsSelf p = false := by simpa using hs
    split at h
    · simp only [gen_pure_ok] at h
      subst h
      exact ⟨rfl, ht, hs, rfl, .shared _ _ _, .inl ⟨_, _, rfl⟩⟩
    · rename_i hn
      simp only [gen_pure_ok] at h
      subst h
      exact ⟨rfl, ht, hs, rfl, .shared _ _ _, .inr ⟨rfl, fun lt m e he => hn lt m e he⟩⟩

theorem value_arg {as : List String} {p p' : Pat} {t : Ty} (h : SameBinding p p')
    (k : patIsSelf p' = false) : IsValueArg (.typed as p t) := by
  cases h with
  | mk m i => simpa [IsValueArg, patIsSelf] using k

theorem buildArgs_built {g : Generics} {n : Nat} : ∀ {l m : List FnArg} {as : List BArg} {st : Bool},
    Pointwise (ArgBoxes g) l m → buildArgs n m = .ok (as, st) →
      ∃ vals, Minus (fun a => ¬ IsValueArg a) l vals ∧ Pointwise (ArgBuilt g n) vals as
  | [], m, as, st, hp, h => by
    cases hp
    simp only [buildArgs, gen_pure_ok, Prod.mk.injEq] at h
    rw [← h.1]
    exact ⟨[], .nil, .nil⟩
  | a :: l, m, as, st, hp, h => by
    cases hp with
    | cons ha hp =>
      cases ha with
      | receiver =>
        simp only [buildArgs, gen_bind_ok, gen_pure_ok, Prod.mk.injEq] at h
        obtain ⟨⟨as', st'⟩, h, rfl, -⟩ := h
        obtain ⟨vals, h1, h2⟩ := buildArgs_built hp h
        exact ⟨vals, .skip (by simp [IsValueArg]) h1, h2⟩
      | typed at_ p p' t t' hsb hbx =>
        simp only [buildArgs, gen_bind_ok, gen_pure_ok, Prod.mk.injEq] at h
        obtain ⟨c, hc, ⟨as', st'⟩, h, rfl, -⟩ := h
        obtain ⟨vals, h1, h2⟩ := buildArgs_built hp h
        obtain ⟨hn, ht, hself, hr, hco, hpt⟩ := buildArg_fits hc
        subst hn
        refine ⟨_, .keep ?_ h1, .cons (.mk at_ p t t' c hsb hbx ?_ hr hco hpt) h2⟩
        · rw [Classical.not_not]
          exact value_arg hsb hself
        · rintro P gens rfl hgood
          exact C41_relative_paths_partial P gens t' c.ty hgood ht

theorem minus_unique {α : Type} {P : α → Prop} {l m m' : List α} (h : Minus P l m) (k : Minus P l m') :
    m = m' := by
  induction h generalizing m' with
  | nil => cases k; rfl
  | skip hp _ ih =>
    cases k with
    | skip _ k => exact ih k
    | keep hn _ => exact absurd hp hn
  | keep hn _ ih =>
    cases k with
    | skip hp _ => exact absurd hp hn
    | keep _ k => rw [ih k]

/-- C60: the mock's arguments are those of the function except `self`, in order, under the same names, with
the types they had (closures boxed; and with the reservations of C41 about paths).  For each the predicate
gets `&T` for an argument of type `T`, `&T` or `&mut T`, and the expression given to it has a type that fits.
The call passes on exactly one expression for each. -/
theorem C60_args (b : Builder) (f : MockFn) (hc : b.concretize = false) (h : build b = .ok f) :
    ∃ vals, Minus (fun a => ¬ IsValueArg a) b.sig.inputs vals ∧
      Pointwise (ArgBuilt b.sig.generics b.levels) vals f.args ∧
      Pointwise (Passes b.sig.generics) vals f.callExprs ∧ f.sig = b.sig := by
  obtain ⟨s⟩ := build_steps h
  have hp := s.prep
  simp only [prepare, hc, Bool.false_eq_true, if_false, gen_bind_ok, gen_pure_ok, Prod.mk.injEq] at hp
  obtain ⟨⟨x, y, z⟩, hd, -, hy, hz, hsig⟩ := hp
  dsimp only at hy hz
  obtain ⟨-, -, h1, ⟨v1, hv1, h2⟩, -⟩ := C50_closures_partial _ _ _ _ _ hd
  obtain ⟨v2, hv2, h3⟩ := buildArgs_built h1 (by rw [hy]; exact s.args)
  cases minus_unique hv1 hv2
  exact ⟨v1, hv1, h3, by rw [← hz]; exact h2, hsig.symm⟩

/-- `fn foo<T>(&self, x: T, y: &mut super::A)`, two modules down. -/
def exBuild : Builder where
  sig := { ident := "foo", generics := { angle := true, params := [.ty { id := "T" }] },
           inputs := [.receiver (some none) false false (.name "Self"),
             .typed [] (.ident false true "x" false) (.name "T"),
             .typed [] (.ident false false "y" false)
               (.ref none true (.path false [.of "super", .of "A"]))] }
  levels := 2

example : (build exBuild).toOption.map MockFn.args = some
    [⟨.ident false false "x" false, .name "T", true, .name "T", .ref none false (.name "T")⟩,
     ⟨.ident false false "y" false,
      .ref none true (.path false [.of "super", .of "super", .of "super", .of "A"]), false,
      .path false [.of "super", .of "super", .of "super", .of "A"],
      .ref none false (.path false [.of "super", .of "super", .of "super", .of "A"])⟩] := by
  decide +kernel

/-! ## Generics and keys -/

theorem typeId_names {C : Type} (σ : Ident → TypeId C) : ∀ l : List Ident,
    typeId.ids σ (l.map .name) = some (l.map σ)
  | [] => rfl
  | i :: l => by
    rw [List.map_cons, typeId.ids, typeId_names σ l]
    rfl

theorem keyid_id {g : Generics} {k : Ty} (h : genKeyid g = .ok k) {C : Type} (σ τ : Ident → TypeId C) :
    (typeId σ k).isSome ∧ (typeId σ k = typeId τ k ↔ ∀ n ∈ typeParams g, σ n = τ n) := by
  have tup : ∀ l : List Ident, (typeId σ (.tuple (l.map .name))).isSome ∧
      (typeId σ (.tuple (l.map .name)) = typeId τ (.tuple (l.map .name)) ↔ ∀ n ∈ l, σ n = τ n) := by
    intro l
    simp only [typeId, typeId_names, Option.map_some, Option.isSome_some, Option.some.injEq,
      TypeId.tuple.injEq, List.map_inj_left, true_and]
  have one : ∀ i : Ident, (typeId σ (.name i)).isSome ∧
      (typeId σ (.name i) = typeId τ (.name i) ↔ σ i = τ i) := by
    intro i
    simp [typeId, Ty.name, Seg.of]
  unfold genKeyid at h
  split at h
  · rename_i hp
    simp only [gen_pure_ok] at h
    subst h
    simpa [typeParams, hp] using tup []
  · rename_i p hp
    simp only [gen_pure_ok] at h
    subst h
    simpa [typeParams, hp] using one p.id
  · simp at h
  · split at h
    · rename_i i hi
      simp only [gen_pure_ok] at h
      subst h
      rw [hi]
      simpa [typeId] using one i
    · simp only [gen_pure_ok] at h
      subst h
      exact tup _

theorem typeParams_iff (g : Generics) (n : Ident) :
    n ∈ typeParams g ↔ (ParamKind.ty, n) ∈ g.params.map GParam.key := by
  simp only [typeParams, List.mem_filterMap, List.mem_map]
  constructor
  · rintro ⟨p, hp, h⟩
    cases p <;> simp only [Option.some.injEq, reduceCtorEq] at h
    subst h
    exact ⟨_, hp, rfl⟩
  · rintro ⟨p, hp, h⟩
    cases p <;> simp only [GParam.key, Prod.mk.injEq, reduceCtorEq, true_and, false_and] at h
    subst h
    exact ⟨_, hp, rfl⟩

theorem typeParams_has (g : Generics) (n : Ident) : n ∈ typeParams g ↔ HasTyParam g n := by
  rw [typeParams_iff, List.mem_map]
  constructor
  · rintro ⟨p, hp, h⟩
    cases p <;> simp only [GParam.key, Prod.mk.injEq, reduceCtorEq, true_and, false_and] at h
    exact ⟨_, hp, h⟩
  · rintro ⟨p, hp, rfl⟩
    exact ⟨_, hp, rfl⟩

/-- Parameters are not forgotten by `mergeGenerics`. -/
def Weak (g : Generics) : Prop := g.angle = false → g.preds = none → g.params = []

theorem Weak.of_wf {g : Generics} (h : Wf g) : Weak g := fun k _ => h k

theorem foldl_mem_keys (k : ParamKind × String) : ∀ ys xs : List GParam,
    k ∈ (ys.foldl (fun out p => addParam p out) xs).map GParam.key ↔
      k ∈ xs.map GParam.key ∨ k ∈ ys.map GParam.key
  | [], xs => by simp
  | y :: ys, xs => by
    rw [List.foldl_cons, foldl_mem_keys k ys, addParam_keys, List.mem_append, List.map_cons,
      List.mem_cons]
    by_cases h : GParam.key y ∈ xs.map GParam.key
    · rw [if_pos h]
      constructor
      · rintro ((h | h) | h)
        · exact .inl h
        · cases h
        · exact .inr (.inr h)
      · rintro (h | rfl | h)
        · exact .inl (.inl h)
        · exact .inl (.inl h)
        · exact .inr h
    · rw [if_neg h, List.mem_singleton, or_assoc]

theorem merge_mem_keys {x y : Generics} (hx : Weak x) (hy : Weak y) (k : ParamKind × String) :
    k ∈ (mergeGenerics x y).params.map GParam.key ↔
      k ∈ x.params.map GParam.key ∨ k ∈ y.params.map GParam.key := by
  simp only [mergeGenerics, mergeParams]
  split
  · rename_i h; rw [hx h.1 h.2]; simp
  · split
    · rename_i h; rw [hy h.1 h.2]; simp
    · exact foldl_mem_keys k _ _

theorem merge_weak {x y : Generics} (hy : Weak y) : Weak (mergeGenerics x y) := by
  intro ha hp
  simp only [mergeGenerics, mergeParams] at ha hp ⊢
  split at ha
  · rename_i h
    rw [if_pos h] at hp ⊢
    refine hy ha ?_
    revert hp
    cases hyp : y.preds <;> simp [mergeWhere]
  · rename_i h
    split at ha
    · rename_i k
      rw [if_neg h, if_pos k, k.2] at hp
      exact absurd ⟨ha, by simpa [mergeWhere] using hp⟩ h
    · rename_i k
      rw [if_neg h, if_neg k] at hp
      refine absurd ⟨ha, ?_⟩ h
      revert hp
      cases x.preds <;> cases y.preds <;> simp [mergeWhere]

theorem supersuperfyGenerics_keys {n : Nat} {g g' : Generics} (h : supersuperfyGenerics n g = .ok g') :
    g'.params.map GParam.key = g.params.map GParam.key ∧ g'.angle = g.angle := by
  simp only [supersuperfyGenerics, gen_bind_ok] at h
  obtain ⟨ps, hps, h⟩ := h
  have hk : ps.map GParam.key = g.params.map GParam.key := by
    refine mapM_ok_rel (g := GParam.key) (k := GParam.key) (fun p _ p' h => ?_) hps
    cases p with
    | ty p =>
      simp only [supersuperfyGParam, gen_bind_ok] at h
      obtain ⟨b, _, h⟩ := h
      split at h
      · simp only [gen_pure_ok] at h; subst h; rfl
      · simp only [gen_bind_ok, gen_pure_ok] at h; obtain ⟨_, _, rfl⟩ := h; rfl
    | lt p => simp only [supersuperfyGParam, gen_pure_ok] at h; subst h; rfl
    | const i t => simp only [supersuperfyGParam, gen_pure_ok] at h; subst h; rfl
  split at h
  · simp only [gen_pure_ok] at h; subst h; exact ⟨hk, rfl⟩
  · simp only [gen_bind_ok, gen_pure_ok] at h; obtain ⟨_, _, rfl⟩ := h; exact ⟨hk, rfl⟩

theorem split_typeParams {g tg : Generics} {args : List FnArg} {rt : Ret} {al rl : List LtParam}
    (hg : Wf g) (h : splitLifetimes g args rt = .ok (tg, al, rl)) :
    Weak tg ∧ ∀ n, HasTyParam tg n ↔ HasTyParam g n := by
  cases ha : g.angle with
  | false =>
    rw [C45_no_params g args rt ha] at h
    cases h
    exact ⟨.of_wf hg, fun n => Iff.rfl⟩
  | true =>
    have hp := (C45_split_partial g args rt tg al rl ha h).1
    constructor
    · intro hangle _
      simp only [splitLifetimes, ha, Bool.true_eq_false, if_false, gen_bind_ok, gen_pure_ok,
        Prod.mk.injEq] at h
      obtain ⟨_, -, _, -, rfl, -, -⟩ := h
      split at hangle
      · rename_i e; rw [if_pos e]
      · cases hangle
    · intro n
      simp only [HasTyParam, hp, List.mem_map, tyParams, List.mem_filterMap]
      constructor
      · rintro ⟨p, ⟨w, ⟨q, hq, hqp⟩, e⟩, hn⟩
        cases e
        cases q <;> simp only [Option.some.injEq, reduceCtorEq] at hqp
        subst hqp
        exact ⟨_, hq, hn⟩
      · rintro ⟨p, hp, hn⟩
        exact ⟨p, ⟨p, ⟨_, hp, rfl⟩, rfl⟩, hn⟩

theorem ltsToGenerics_weak (l : List LtParam) : Weak (ltsToGenerics l) := by
  unfold ltsToGenerics
  split
  · exact fun _ _ => rfl
  · exact fun h _ => by cases h

theorem ltsToGenerics_noTy (l : List LtParam) (n : Ident) :
    ¬ (ParamKind.ty, n) ∈ (ltsToGenerics l).params.map GParam.key := by
  unfold ltsToGenerics
  split
  · simp
  · simp [GParam.key]

theorem has_key (g : Generics) (n : Ident) :
    HasTyParam g n ↔ (ParamKind.ty, n) ∈ g.params.map GParam.key := by
  rw [← typeParams_has, typeParams_iff]

theorem minus_mem {α : Type} {P : α → Prop} {l m : List α} (h : Minus P l m) (a : α) :
    a ∈ m ↔ a ∈ l ∧ ¬ P a := by
  induction h with
  | nil => simp
  | skip hp _ ih =>
    rw [ih, List.mem_cons]
    constructor
    · rintro ⟨h, k⟩; exact ⟨.inr h, k⟩
    · rintro ⟨rfl | h, k⟩
      · exact absurd hp k
      · exact ⟨h, k⟩
  | keep hn _ ih =>
    rw [List.mem_cons, List.mem_cons, ih]
    constructor
    · rintro (rfl | ⟨h, k⟩)
      · exact ⟨.inl rfl, hn⟩
      · exact ⟨.inr h, k⟩
    · rintro ⟨rfl | h, k⟩
      · exact .inl rfl
      · exact .inr ⟨h, k⟩

/-- The type parameters of the expectation: those of the struct, and those of the function that are not
closures. -/
theorem build_typeParams {b : Builder} {f : MockFn} (hc : b.concretize = false)
    (hs : Wf (b.structGenerics.getD {})) (hw : Wf b.sig.generics) (h : build b = .ok f) (n : Ident) :
    n ∈ f.fnParams ↔ HasTyParam (b.structGenerics.getD {}) n ∨
      (HasTyParam b.sig.generics n ∧ ¬ Closure b.sig.generics n) := by
  obtain ⟨s⟩ := build_steps h
  have hp := s.prep
  simp only [prepare, hc, Bool.false_eq_true, if_false, gen_bind_ok, gen_pure_ok, Prod.mk.injEq] at hp
  obtain ⟨⟨x, y, z⟩, hd, hx, -, -, -⟩ := hp
  dsimp only at hx
  have hm := (C50_closures_partial _ _ _ _ _ hd).1
  have hxw : Wf x := by
    simp only [declosurefy, gen_bind_ok, gen_pure_ok, Prod.mk.injEq] at hd
    obtain ⟨_, -, _, -, _, -, _, -, rfl, -, -⟩ := hd
    intro ha
    simp only [declosureGenerics] at ha ⊢
    split at ha
    · assumption
    · rw [hw ha]; rfl
  rw [hx] at hm hxw
  obtain ⟨kk, ka⟩ := supersuperfyGenerics_keys s.gens
  have hdw : Wf s.dg' := by
    intro ha
    rw [ka] at ha
    have := hxw ha
    rw [this] at kk
    simpa using kk
  obtain ⟨w1, t1⟩ := split_typeParams hs s.sgen
  obtain ⟨w2, t2⟩ := split_typeParams hdw s.mgen
  rw [s.params, typeParams_iff, s.egen,
    merge_mem_keys (merge_weak (ltsToGenerics_weak _)) (ltsToGenerics_weak _),
    merge_mem_keys (by rw [s.cgen]; exact merge_weak w2) (ltsToGenerics_weak _), s.cgen,
    merge_mem_keys w1 w2, ← has_key, ← has_key, t1, t2]
  simp only [ltsToGenerics_noTy, or_false]
  rw [has_key s.dg', kk, ← has_key]
  refine or_congr_right ?_
  constructor
  · rintro ⟨p, h, rfl⟩
    obtain ⟨h, k⟩ := (minus_mem hm _).1 h
    exact ⟨⟨p, h, rfl⟩, fun c => k ⟨p, rfl, c⟩⟩
  · rintro ⟨⟨p, h, rfl⟩, k⟩
    exact ⟨p, (minus_mem hm _).2 ⟨h, fun ⟨q, e, c⟩ => by cases e; exact k c⟩, rfl⟩

/-- C53, as far as it holds: the keys of two instantiations of a function are equal iff the type arguments
for the struct's parameters and for the function's are, closure parameters excepted.  Missing: closure
parameters (`C53_closures_share`); and functions for which no key can be made (`C53_lifetime_only`). -/
theorem C53_keys_partial (b : Builder) (f : MockFn) (k : Ty) (hc : b.concretize = false)
    (hs : Wf (b.structGenerics.getD {})) (hw : Wf b.sig.generics) (h : build b = .ok f)
    (hk : genKeyid f.egenerics = .ok k) {C : Type} (σ τ : Ident → TypeId C) :
    (typeId σ k).isSome ∧
    (typeId σ k = typeId τ k ↔
      ∀ n, HasTyParam (b.structGenerics.getD {}) n ∨
        (HasTyParam b.sig.generics n ∧ ¬ Closure b.sig.generics n) → σ n = τ n) := by
  obtain ⟨h1, h2⟩ := keyid_id hk σ τ
  refine ⟨h1, h2.trans ?_⟩
  obtain ⟨s⟩ := build_steps h
  have := build_typeParams hc hs hw h
  simp only [s.params] at this
  simp only [this]

/-- A key can be made unless there is exactly one parameter and it is not a type. -/
theorem C53_total (g : Generics) : Gen.succeeds (genKeyid g) ↔ ∀ p, g.params = [p] → ∃ q, p = .ty q := by
  unfold genKeyid
  split
  · rename_i h; simp [h]
  · rename_i q h; simp [h]
  · rename_i p hp h
    simp only [succeeds_throw, h, false_iff]
    intro k
    obtain ⟨q, rfl⟩ := k p rfl
    exact hp q rfl
  · rename_i h1 h2 h3
    constructor
    · intro _ p hp
      exact absurd hp (h3 p)
    · intro _
      split <;> exact succeeds_pure

/-- The key built for `b`. -/
def keyOf (b : Builder) : Option Ty := do
  let f ← (build b).toOption
  (genKeyid f.egenerics).toOption

theorem keyOf_some {b : Builder} {k : Ty} (h : keyOf b = some k) :
    ∃ f, build b = .ok f ∧ genKeyid f.egenerics = .ok k := by
  unfold keyOf at h
  cases hb : build b with
  | error e => rw [hb] at h; cases h
  | ok f =>
    rw [hb] at h
    refine ⟨f, rfl, ?_⟩
    cases hk : genKeyid f.egenerics with
    | error e => simp [Except.toOption, hk] at h
    | ok k' => simp [Except.toOption, hk] at h; rw [h]

/-- `fn foo<T: 'static, U: 'static, F: Fn(T) -> U>(&self, x: T, f: F) -> U`, of a struct with a `<V>`. -/
def exKeys : Builder where
  sig := { ident := "foo"
           generics := { angle := true, params := [.ty { id := "T", bounds := [.lt "static"] },
             .ty { id := "U", bounds := [.lt "static"] },
             .ty { id := "F", bounds := [.trait false [] false
               [.mk "Fn" (.paren [.name "T"] (.ty (.name "U")))]] }] }
           inputs := [.receiver (some none) false false (.name "Self"),
             .typed [] (.ident false false "x" false) (.name "T"),
             .typed [] (.ident false false "f" false) (.name "F")]
           output := .ty (.name "U") }
  levels := 2
  structGenerics := some { angle := true, params := [.ty { id := "V" }] }

example : keyOf exKeys = some (.tuple [.name "V", .name "T", .name "U"]) := by decide +kernel

example : Wf (exKeys.structGenerics.getD {}) ∧ Wf exKeys.sig.generics :=
  ⟨fun h => (by cases h), fun h => (by cases h)⟩

/-- Instantiations that differ in the type of a closure only have the same key: C53 fails for them. -/
theorem C53_closures_share : ∃ b f k, build b = .ok f ∧ genKeyid f.egenerics = .ok k ∧
    ∃ σ τ : Ident → TypeId Nat, (∃ n, HasTyParam b.sig.generics n ∧ σ n ≠ τ n) ∧ typeId σ k = typeId τ k := by
  obtain ⟨f, hf, hk⟩ := keyOf_some (b := exKeys) (k := .tuple [.name "V", .name "T", .name "U"])
    (by decide +kernel)
  refine ⟨exKeys, f, _, hf, hk, fun _ => .of 0, fun n => if n = "F" then .of 1 else .of 0,
    ⟨"F", ⟨_, List.mem_cons_of_mem _ (List.mem_cons_of_mem _ List.mem_cons_self), rfl⟩, by simp⟩, ?_⟩
  simp [typeId, typeId.ids, Ty.name, Seg.of]

/-- `fn foo(&self) -> X<'a> where u32: Debug`, of a struct with an `<'a>`. -/
def exLifetime : Builder where
  sig := { ident := "foo"
           generics := { preds := some [.ty none (.name "u32") [.trait false [] false [.of "Debug"]]] }
           inputs := [.receiver (some none) false false (.name "Self")]
           output := .ty (.path false [.mk "X" (.angle [.lt "a"])]) }
  levels := 2
  structGenerics := some { angle := true, params := [.lt { lt := "a" }] }

/-- The function is taken to be generic and has a lifetime as its only parameter: the `Key::new::<'a>()`
generated is not valid. -/
theorem C53_lifetime_only :
    (build exLifetime).toOption.map (fun f => (f.isExpectationGeneric, f.isMethodGeneric)) =
      some (true, true) ∧
    ∃ f, build exLifetime = .ok f ∧ ¬ Gen.succeeds (genKeyid f.egenerics) := by
  refine ⟨by decide +kernel, ?_⟩
  have h : (build exLifetime).toOption.map (fun f => f.egenerics.params) = some [.lt { lt := "a" }] := by
    decide +kernel
  cases hb : build exLifetime with
  | error e => rw [hb] at h; cases h
  | ok f =>
    rw [hb] at h
    refine ⟨f, rfl, ?_⟩
    rw [C53_total]
    intro k
    obtain ⟨q, hq⟩ := k (.lt { lt := "a" }) (by simpa [Except.toOption] using h)
    cases hq

example : (build exBuild).toOption.map MockFn.kind = some .static := by decide +kernel

/-- `fn foo(x: u32) -> &'a mut u32` -/
def exStatic : Builder where
  sig := { ident := "foo", inputs := [.typed [] (.ident false false "x" false) (.name "u32")],
           output := .ty (.ref (some "a") true (.name "u32")) }

example : ¬ IsMethod exStatic.sig.inputs ∧ RefReturn true exStatic.sig.output :=
  ⟨by simp [IsMethod, exStatic], ⟨_, _, rfl, by decide⟩⟩

end Mockall.Props
