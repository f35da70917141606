import Verif.Lemmas.Deselfify
import Verif.Lemmas.Deanonymize
import Verif.Lemmas.Subst

/-! # C42, C43, C51: replacing `Self`, `'_` and associated types -/

namespace Mockall.Props

open Derive Spec

/-! ## C42 -/

/-- No type parameter is called `Self` (a keyword). -/
def ParamsOk (g : Generics) : Prop := ∀ p, GParam.ty p ∈ g.params → p.id ≠ "Self"

theorem selfArgs_eq {g : Generics} {a : Args} (h : selfArgs g = .ok a) : a = paramArgs g.params := by
  unfold selfArgs at h
  unfold paramArgs
  split at h
  · rename_i hp
    simp only [gen_pure_ok] at h
    rw [if_pos hp, h]
  · rename_i hp
    rw [if_neg hp]
    split at h
    · simp at h
    · simp only [gen_bind_ok, gen_pure_ok] at h
      obtain ⟨l, hl, rfl⟩ := h
      rw [mapM_ok_map (g := paramArg) ?_ hl]
      intro p _ b hb
      cases p <;> simp only [gen_pure_ok, gen_throw_ok] at hb <;> simp [paramArg, ← hb]

theorem paramArgs_noSelf {g : Generics} {a : Args} (hg : ParamsOk g) (h : selfArgs g = .ok a) :
    All NotSelf (leavesArgs a) := by
  have hl : ∀ l : List GParam, (∀ p, GParam.ty p ∈ l → p.id ≠ "Self") →
      (∀ i t, GParam.const i t ∉ l) → All NotSelf (leavesGArgs (l.map paramArg)) := by
    intro l
    induction l with
    | nil => intro _ _ x hx; simp [leavesGArgs] at hx
    | cons p l ih =>
      intro h1 h2 x hx
      simp only [List.map_cons, leavesGArgs, List.mem_append] at hx
      rcases hx with hx | hx
      · cases p with
        | lt p => simp [paramArg, leavesGArg] at hx; subst hx; intro b; simp
        | const i t => exact absurd List.mem_cons_self (h2 i t)
        | ty p =>
          simp [paramArg, leavesGArg, Ty.name, leaves, leavesSegs, leavesSeg, Seg.of, leavesArgs] at hx
          subst hx
          intro b hb
          injection hb with hb
          exact h1 p List.mem_cons_self hb
      · exact ih (fun p hp => h1 p (List.mem_cons_of_mem _ hp))
          (fun i t hp => h2 i t (List.mem_cons_of_mem _ hp)) x hx
  have hc : g.params ≠ [] → ∀ i t, GParam.const i t ∉ g.params := by
    intro hne i t hi
    unfold selfArgs at h
    rw [if_neg hne] at h
    split at h
    · simp at h
    · simp only [gen_bind_ok] at h
      obtain ⟨l, hl, _⟩ := h
      obtain ⟨b, hb⟩ := mapM_succeeds.1 ⟨l, hl⟩ _ hi
      simp at hb
  rw [selfArgs_eq h]
  unfold paramArgs
  split
  · intro x hx; simp [leavesArgs] at hx
  · rename_i hne
    exact hl g.params hg (hc hne)

/-- C42, `Self` is fully replaced.  Full statement: for every type `t` with `deselfify .. t = .ok t'`,
every `Self` anywhere in `t` has become the mock struct with its generic parameters as arguments, no
`Self` is left and nothing else has changed.

Partial: for types without `Self` in the places the code does not look into, which are the inside of
`fn(..) -> ..`, of `impl ..`, of `Fn(..) -> ..` and of bounds `Trait<Item: ..>`.  There the claim is
false, see `C42_self_survives`. -/
theorem C42_self_replaced_partial (actual : Ident) (g : Generics) (t t' : Ty)
    (hactual : actual ≠ "Self") (hparams : ParamsOk g)
    (hblind : All NotSelf (unseen selfBlind t))
    (h : deselfify actual g t = .ok t') :
    t' = rewrite (selfRewrite actual (paramArgs g.params)) t ∧ All NotSelf (leaves t') := by
  refine ⟨deselfify_rewrite (fun a ha => selfArgs_eq ha) t t' hblind h, ?_⟩
  by_cases hs : ∃ a, selfArgs g = .ok a
  · obtain ⟨a, ha⟩ := hs
    rw [deselfify_rewrite (args := a) (fun b hb => by rw [ha] at hb; injection hb with hb; exact hb.symm)
      t t' hblind h]
    refine leaves_rewrite ⟨?_, ?_, ?_⟩ t
    · intro l b hb; cases hb
    · intro i b hb x hx
      simp only [selfRewrite] at hx
      split at hx
      · simp only [leavesSeg, List.mem_cons] at hx
        rcases hx with rfl | hx
        · intro c hc; injection hc with hc; exact hactual hc
        · exact paramArgs_noSelf hparams ha x hx
      · rename_i hi
        simp only [leavesSeg, List.mem_cons] at hx
        rcases hx with rfl | hx
        · intro c hc; injection hc with hc; exact hi hc
        · exact hb x hx
    · intro f b hb; cases hb
  · have hg : ∀ args a, selfArgs g = .ok a → a = args := fun _ a ha => absurd ⟨a, ha⟩ hs
    rw [deselfify_rewrite (args := .none) (hg .none) t t' hblind h]
    refine leaves_rewrite ⟨?_, ?_, ?_⟩ t
    · intro l b hb; cases hb
    · intro i b hb x hx
      simp only [selfRewrite] at hx
      split at hx
      · simp only [leavesSeg, leavesArgs, List.mem_singleton] at hx
        subst hx
        intro c hc; injection hc with hc; exact hactual hc
      · rename_i hi
        simp only [leavesSeg, List.mem_cons] at hx
        rcases hx with rfl | hx
        · intro c hc; injection hc with hc; exact hi hc
        · exact hb x hx
    · intro f b hb; cases hb

/-- C42, the same for a whole argument: the written-out type of the receiver and the types of all
other arguments are processed, patterns and attributes stay as they are. -/
theorem C42_self_replaced_args_partial (actual : Ident) (g : Generics) (a a' : FnArg)
    (hactual : actual ≠ "Self") (hparams : ParamsOk g)
    (hblind : ∀ r m c t, a = .receiver r m c t → c = true → All NotSelf (unseen selfBlind t))
    (hblind' : ∀ at_ p t, a = .typed at_ p t → All NotSelf (unseen selfBlind t))
    (h : deselfifyArg actual g a = .ok a') :
    match a, a' with
    | .receiver r m c t, .receiver r' m' c' t' => r = r' ∧ m = m' ∧ c = c' ∧
      if c then t' = rewrite (selfRewrite actual (paramArgs g.params)) t ∧ All NotSelf (leaves t')
      else t' = t
    | .typed at_ p t, .typed at' p' t' => at_ = at' ∧ p = p' ∧
      t' = rewrite (selfRewrite actual (paramArgs g.params)) t ∧ All NotSelf (leaves t')
    | _, _ => False := by
  cases a with
  | receiver r m c t =>
    simp only [deselfifyArg] at h
    split at h
    · rename_i hc
      simp only [gen_bind_ok, gen_pure_ok] at h
      obtain ⟨t', ht, rfl⟩ := h
      refine ⟨rfl, rfl, rfl, ?_⟩
      rw [if_pos hc]
      exact C42_self_replaced_partial actual g t t' hactual hparams (hblind _ _ _ _ rfl hc) ht
    · rename_i hc
      simp only [gen_pure_ok] at h
      subst h
      exact ⟨rfl, rfl, rfl, by rw [if_neg hc]⟩
  | typed at_ p t =>
    simp only [deselfifyArg, gen_bind_ok, gen_pure_ok] at h
    obtain ⟨t', ht, rfl⟩ := h
    exact ⟨rfl, rfl, C42_self_replaced_partial actual g t t' hactual hparams (hblind' _ _ _ rfl) ht⟩

/-- C42: processing succeeds for every type without macro calls, unparsed tokens and `Self<..>`, for
structs without const parameters. -/
theorem C42_self_total (actual : Ident) (g : Generics) (t : Ty)
    (hangle : g.params ≠ [] → g.angle = true) (hconst : ∀ i u, GParam.const i u ∉ g.params)
    (h : All SelfSupported (leaves t)) : ∃ t', deselfify actual g t = .ok t' := by
  have : Gen.succeeds (selfArgs g) := by
    unfold selfArgs
    split
    · simp
    · rename_i hne
      rw [if_neg (by simp [hangle hne])]
      simp only [succeeds_bind, succeeds_pure, and_true]
      refine mapM_succeeds.2 fun p hp => ?_
      cases p with
      | lt p => simp
      | ty p => simp
      | const i u => exact absurd hp (hconst i u)
  obtain ⟨a, ha⟩ := this
  exact deselfify_ok ha t h

/-- `Self` as a type. -/
def selfTy : Ty := .name "Self"

/-- C42 is false in the blind spots: from `fn(Self)` and `Box<dyn Fn(Self)>` the code does not remove
`Self`.  In the generated module `Self` is then the expectation struct instead of the mock. -/
theorem C42_self_survives :
    (∃ t', deselfify "MockFoo" {} (.bareFn [] [selfTy] .unit) = .ok t' ∧
      .seg "Self" true ∈ leaves t') ∧
    (∃ t', deselfify "MockFoo" {} (.path false [.mk "Box" (.angle [.ty (.traitObject
        [.trait false [] false [.mk "Fn" (.paren [selfTy] .unit)]])])]) = .ok t' ∧
      .seg "Self" true ∈ leaves t') :=
  ⟨⟨_, rfl, by decide⟩, ⟨_, rfl, by decide⟩⟩

/-- C42 also fails by rejection: with a const generic parameter every `Self` is a compile error. -/
theorem C42_const_rejected :
    deselfify "MockFoo" ⟨true, [.const "N" (.name "usize")], none⟩ selfTy = .error "not implemented" :=
  rfl

/-- `&'a (Option<Self>, [Self])`, in a struct `Foo<'b, T>`. -/
example :
    let g : Generics := ⟨true, [.lt ⟨"b", []⟩, .ty ⟨"T", [], none, []⟩], none⟩
    let t : Ty := .ref (some "a") false (.tuple [.path false [.mk "Option" (.angle [.ty selfTy])],
      .slice selfTy])
    let mock : Ty := .path false [.mk "MockFoo" (.angle [.lt "b", .ty (.name "T")])]
    ParamsOk g ∧ All NotSelf (unseen selfBlind t) ∧ All SelfSupported (leaves t) ∧
    deselfify "MockFoo" g t =
      .ok (.ref (some "a") false (.tuple [.path false [.mk "Option" (.angle [.ty mock])],
        .slice mock])) := by
  refine ⟨?_, ?_, ?_, rfl⟩
  · intro p hp; simp at hp; subst hp; decide
  · intro x hx; simp [unseen, unseenTys, unseenSegs, unseenSeg, unseenArgs, unseenGArgs, unseenGArg,
      selfTy, Ty.name, Seg.of, selfBlind] at hx
  · show ∀ x ∈ _, x ≠ _ ∧ x ≠ _
    decide

/-! ## C43 -/

/-- C43, anonymous lifetimes are fully replaced.  Full statement: for every type `t` with
`deanonymize t = .ok t'`, every `'_` anywhere in `t` has become `'static`, no `'_` is left and nothing
else has changed.

Partial: for types without `'_` in the places the code does not look into, which are the type
arguments and associated types of paths, and bounds `Trait<Item: ..>`.  There the claim is false, see
`C43_anonymous_survives`. -/
theorem C43_deanonymized_partial (t t' : Ty) (hblind : All NotAnon (unseen anonBlind t))
    (h : deanonymize t = .ok t') : t' = rewrite anonRewrite t ∧ All NotAnon (leaves t') := by
  refine ⟨deanonymize_rewrite t t' hblind h, ?_⟩
  rw [deanonymize_rewrite t t' hblind h]
  refine leaves_rewrite ⟨?_, ?_, ?_⟩ t
  · intro l h
    simp only [anonRewrite] at h
    split at h
    · exact absurd h (by decide)
    · rename_i hl; injection h with h; exact hl h
  · intro i a ha x hx
    simp only [anonRewrite, leavesSeg, List.mem_cons] at hx
    rcases hx with rfl | hx
    · intro h; cases h
    · exact ha x hx
  · intro f h; cases h

/-- C43: processing succeeds for every type without macro calls, unparsed tokens, `impl Trait` and
`Fn(..) -> ..`. -/
theorem C43_total (t : Ty) (h : All AnonSupported (leaves t)) : ∃ t', deanonymize t = .ok t' :=
  deanonymize_ok t h

/-- C43 is false in the blind spots: `Option<&'_ u32>` and `Box<dyn T + '_>` keep their `'_`. -/
theorem C43_anonymous_survives :
    (∃ t', deanonymize (.path false [.mk "Option" (.angle [.ty (.ref (some "_") false
      (.name "u32"))])]) = .ok t' ∧ .lt "_" ∈ leaves t') ∧
    (∃ t', deanonymize (.path false [.mk "Box" (.angle [.ty (.traitObject
      [.trait false [] false [.of "T"], .lt "_"])])]) = .ok t' ∧ .lt "_" ∈ leaves t') :=
  ⟨⟨_, rfl, by decide⟩, ⟨_, rfl, by decide⟩⟩

/-- `(&'_ str, Ref<'_, T>, dyn A + '_, &'a u8)`. -/
example :
    let t (l : Lt) : Ty := .tuple [.ref (some l) false (.name "str"),
      .path false [.mk "Ref" (.angle [.lt l, .ty (.name "T")])],
      .traitObject [.trait false [] false [.of "A"], .lt l], .ref (some "a") false (.name "u8")]
    All NotAnon (unseen anonBlind (t "_")) ∧ All AnonSupported (leaves (t "_")) ∧
    deanonymize (t "_") = .ok (t "static") := by
  refine ⟨?_, ?_, rfl⟩
  · show ∀ x ∈ _, x ≠ _
    decide
  · show ∀ x ∈ _, x ≠ _ ∧ x ≠ _ ∧ x ≠ _
    decide

/-! ## C51 -/

/-- C51, associated types are substituted.  Full statement: for every type `t` with
`substTy σ trait t = .ok t'`, every `Self::T` and `<Self as Trait>::T` anywhere in `t` with `T` in `σ`
has been replaced by `σ T`, and nothing else has changed.

Partial: for types without `Self` inside bounds `Trait<Item: ..>`, where the code does not look; the
claim is false there, see `C51_assoc_survives`. -/
theorem C51_assoc_substituted_partial (σ : Subst) (trait : Ident) (t t' : Ty)
    (hblind : All (Lacks "Self") (unseen substBlind t)) (h : substTy σ trait t = .ok t') :
    t' = replace (assocReplace (fun i => σ.lookup i) trait) t :=
  substTy_replace t t' hblind h

/-- C51: a type without `Self` does not change at all. -/
theorem C51_no_self_unchanged (σ : Subst) (trait : Ident) (t t' : Ty)
    (hself : All (Lacks "Self") (leaves t)) (hblind : All (Lacks "Self") (unseen substBlind t))
    (h : substTy σ trait t = .ok t') : t' = t := by
  rw [substTy_replace t t' hblind h, replace_id (assoc_needs _ _) t hself]

/-- C51: an associated type itself, in both spellings, wherever the trait has it in its list. -/
theorem C51_assoc_direct (σ : Subst) (trait T : Ident) (u : Ty) (h : σ.lookup T = some u) :
    substTy σ trait (.path false [.of "Self", .of T]) = .ok u ∧
    substTy σ trait (.qpath (.name "Self") 1 false [.of trait, .of T]) = .ok u := by
  constructor
  · simp [substTy, getPath, Seg.of, Seg.id, h, pure, Except.pure]
  · simp [substTy, substQself, qselfPath, Ty.name, Seg.of, Seg.id, h, pure, Except.pure]

/-- C51: substitution succeeds for every type without macro calls, unparsed tokens, `Fn(..)` and
`<A as B>::C` (when paths are substituted). -/
theorem C51_total (σ : Subst) (trait : Ident) (t : Ty) (hσ : σ.Paths)
    (h : All SubstSupported (leaves t)) : ∃ t', substTy σ trait t = .ok t' :=
  substTy_ok hσ t h

/-- `Box<dyn Iterator<Item: Into<Self::T>>>`. -/
def boundedItem : Ty :=
  .path false [.mk "Box" (.angle [.ty (.traitObject [.trait false [] false [.mk "Iterator" (.angle
    [.constraint "Item" [.trait false [] false [.mk "Into" (.angle
      [.ty (.path false [.of "Self", .of "T"])])]]])]])])]

/-- C51 is false in the blind spot: the bound keeps its `Self::T`. -/
theorem C51_assoc_survives :
    substTy [("T", .name "u32")] "Foo" boundedItem = .ok boundedItem ∧
    replace (assocReplace (fun i => List.lookup i [("T", .name "u32")]) "Foo") boundedItem ≠
      boundedItem :=
  ⟨rfl, by decide +kernel⟩

/-- `&Vec<(Self::T, Self::U, <Self as Foo>::T)>` with `type T = u32` (and no `U`). -/
example :
    let σ : Subst := [("T", .name "u32")]
    let t : Ty := .ref none false (.path false [.mk "Vec" (.angle [.ty (.tuple
      [.path false [.of "Self", .of "T"], .path false [.of "Self", .of "U"],
       .qpath (.name "Self") 1 false [.of "Foo", .of "T"]])])])
    All (Lacks "Self") (unseen substBlind t) ∧
    substTy σ "Foo" t = .ok (.ref none false (.path false [.mk "Vec" (.angle [.ty (.tuple
      [.name "u32", .path false [.of "Self", .of "U"], .name "u32"])])])) := by
  refine ⟨?_, rfl⟩
  intro x hx
  exact absurd hx (by revert x; decide)

end Mockall.Props
