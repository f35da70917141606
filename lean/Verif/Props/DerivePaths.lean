import Verif.Lemmas.Names
import Verif.Spec.Types
import Verif.Derive.Modules

/-! # C41: relative paths keep their meaning in generated code -/

namespace Mockall.Props

open Derive Spec

/-- C41.  Full statement: for every module `P`, every stack `gens` of generated modules inside it and
every type `t`, if `supersuperfy gens.length t = .ok t'` then `t'`, written in the innermost generated
module, means what `t` means in `P`.

Partial: provided that every path in `t` is `Good`, i.e. starts with `::`, with `crate`, with `super` in
a place the code looks at, or with a name the generated modules do not use themselves.  For other paths
it is false, see `C41_not_rewritten`, `C41_self_super` and `C41_captured`. -/
theorem C41_relative_paths_partial (P : Place) (gens : List Module) (t t' : Ty)
    (hgood : ∀ u ∈ uses true t, u.Good gens) (h : supersuperfy gens.length t = .ok t') :
    denote (P.nest gens) t' = denote P t :=
  supersuperfy_denote t t' hgood h

theorem supersuperfyGParam_denote {P : Place} {gens : List Module} (p p' : GParam)
    (hgood : Goods gens (GParam.uses p)) (h : supersuperfyGParam gens.length p = .ok p') :
    denoteGParam (P.nest gens) p' = denoteGParam P p := by
  cases p with
  | lt p => simp only [supersuperfyGParam, gen_pure_ok] at h; subst h; rfl
  | const i t =>
    simp only [supersuperfyGParam, gen_pure_ok] at h
    subst h
    rw [denoteGParam, denoteGParam, denote_unseen t hgood]
  | ty p =>
    simp only [supersuperfyGParam, gen_bind_ok] at h
    obtain ⟨b, hb, h⟩ := h
    simp only [GParam.uses] at hgood
    have hb := supersuperfyBounds_denote (P := P) p.bounds b hgood.left hb
    split at h
    · rename_i hd
      simp only [gen_pure_ok] at h
      subst h
      simp only [denoteGParam, hb, hd, Option.map]
    · rename_i t hd
      simp only [gen_bind_ok, gen_pure_ok] at h
      obtain ⟨t', ht, rfl⟩ := h
      have hr := hgood.right
      rw [hd] at hr
      have ht := supersuperfy_denote (P := P) t t' hr ht
      simp only [denoteGParam, hb, hd, Option.map, ht]

theorem supersuperfyWPred_denote {P : Place} {gens : List Module} (p p' : WPred)
    (hgood : Goods gens (WPred.uses p)) (h : supersuperfyWPred gens.length p = .ok p') :
    denoteWPred (P.nest gens) p' = denoteWPred P p := by
  cases p with
  | lt l b => simp only [supersuperfyWPred, gen_pure_ok] at h; subst h; rfl
  | ty l t b =>
    simp only [supersuperfyWPred, gen_bind_ok, gen_pure_ok] at h
    obtain ⟨t', ht, b', hb, rfl⟩ := h
    rw [denoteWPred, denoteWPred, supersuperfy_denote t t' hgood.left ht,
      supersuperfyBounds_denote b b' hgood.right hb]

/-- C41 for generic parameters with their bounds and defaults and for where clauses.  Partial for the
same reason. -/
theorem C41_generics_partial (P : Place) (gens : List Module) (g g' : Generics)
    (hgood : ∀ u ∈ Generics.uses g, u.Good gens)
    (h : supersuperfyGenerics gens.length g = .ok g') :
    denoteGenerics (P.nest gens) g' = denoteGenerics P g := by
  have hg1 : ∀ p ∈ g.params, Goods gens (GParam.uses p) := fun p hp u hu =>
    hgood u (List.mem_append_left _ (List.mem_flatMap.2 ⟨p, hp, hu⟩))
  have hg2 : ∀ p ∈ g.preds.getD [], Goods gens (WPred.uses p) := fun p hp u hu =>
    hgood u (List.mem_append_right _ (List.mem_flatMap.2 ⟨p, hp, hu⟩))
  simp only [supersuperfyGenerics, gen_bind_ok] at h
  obtain ⟨ps, hps, h⟩ := h
  have hps := mapM_ok_rel (g := denoteGParam (P.nest gens)) (k := denoteGParam P)
    (fun p hp p' h => supersuperfyGParam_denote p p' (hg1 p hp) h) hps
  split at h
  · rename_i hp
    simp only [gen_pure_ok] at h
    subst h
    simp only [denoteGenerics, hps, hp, Option.map]
  · rename_i l hp
    simp only [gen_bind_ok, gen_pure_ok] at h
    obtain ⟨l', hl, rfl⟩ := h
    rw [hp] at hg2
    have hl := mapM_ok_rel (g := denoteWPred (P.nest gens)) (k := denoteWPred P) (l := l)
      (fun p hp p' h => supersuperfyWPred_denote p p' (hg2 p hp) h) hl
    simp only [denoteGenerics, hps, hp, Option.map, hl]

/-! Types the code accepts -/

/-- No macro call and no unparsed tokens. -/
def Parsed (l : Leaf) : Prop := l ≠ .form .opaque

mutual
theorem supersuperfy_ok (n : Nat) : ∀ t : Ty, All Parsed (leaves t) →
    Gen.succeeds (supersuperfy n t)
  | .array e l, h => by
    rw [supersuperfy]
    exact succeeds_seq (supersuperfy_ok n e h) fun _ => succeeds_pure
  | .bareFn l i o, h => by
    rw [supersuperfy]
    exact succeeds_seq (supersuperfyRet_ok n o h.tail.right) fun _ =>
      succeeds_seq (supersuperfyTys_ok n i h.tail.left) fun _ => succeeds_pure
  | .group e, h => by
    rw [supersuperfy]
    exact succeeds_seq (supersuperfy_ok n e h) fun _ => succeeds_pure
  | .implTrait b, h => by simp only [supersuperfy, succeeds_pure]
  | .infer, h => by simp only [supersuperfy, succeeds_pure]
  | .mac _, h => absurd rfl h.head
  | .never, h => by simp only [supersuperfy, succeeds_pure]
  | .paren e, h => by
    rw [supersuperfy]
    exact succeeds_seq (supersuperfy_ok n e h) fun _ => succeeds_pure
  | .path l s, h => by
    rw [supersuperfy]
    exact succeeds_seq (supersuperfyLast_ok n s h) fun _ => succeeds_pure
  | .qpath q p l s, h => by
    rw [supersuperfy]
    exact succeeds_seq (supersuperfyLast_ok n s h.tail.right) fun _ =>
      succeeds_seq (supersuperfy_ok n q h.tail.left) fun _ => succeeds_pure
  | .ptr _ e, h => by
    rw [supersuperfy]
    exact succeeds_seq (supersuperfy_ok n e h) fun _ => succeeds_pure
  | .ref _ _ e, h => by
    rw [supersuperfy]
    exact succeeds_seq (supersuperfy_ok n e h.right) fun _ => succeeds_pure
  | .slice e, h => by
    rw [supersuperfy]
    exact succeeds_seq (supersuperfy_ok n e h) fun _ => succeeds_pure
  | .traitObject b, h => by
    rw [supersuperfy]
    exact succeeds_seq (supersuperfyBounds_ok n b h) fun _ => succeeds_pure
  | .tuple l, h => by
    rw [supersuperfy]
    exact succeeds_seq (supersuperfyTys_ok n l h) fun _ => succeeds_pure
  | .verbatim _, h => absurd rfl h.head
theorem supersuperfyRet_ok (n : Nat) : ∀ t : Ret, All Parsed (leavesRet t) →
    Gen.succeeds (supersuperfyRet n t)
  | .unit, _ => by simp only [supersuperfyRet, succeeds_pure]
  | .ty t, h => by
    rw [supersuperfyRet]
    exact succeeds_seq (supersuperfy_ok n t h) fun _ => succeeds_pure
theorem supersuperfyLast_ok (n : Nat) : ∀ t : List Seg, All Parsed (leavesSegs t) →
    Gen.succeeds (supersuperfyLast n t)
  | [], _ => by simp only [supersuperfyLast, succeeds_pure]
  | [.mk i a], h => by
    rw [supersuperfyLast]
    exact succeeds_seq (supersuperfyArgs_ok n a h.left.tail) fun _ => succeeds_pure
  | s :: t :: l, h => by
    rw [supersuperfyLast]
    exact succeeds_seq (supersuperfyLast_ok n (t :: l) h.right) fun _ => succeeds_pure
theorem supersuperfyArgs_ok (n : Nat) : ∀ t : Args, All Parsed (leavesArgs t) →
    Gen.succeeds (supersuperfyArgs n t)
  | .none, _ => by simp only [supersuperfyArgs, succeeds_pure]
  | .angle l, h => by
    rw [supersuperfyArgs]
    exact succeeds_seq (supersuperfyGArgs_ok n l h) fun _ => succeeds_pure
  | .paren i o, h => by
    rw [supersuperfyArgs]
    exact succeeds_seq (supersuperfyTys_ok n i h.tail.left) fun _ =>
      succeeds_seq (supersuperfyRet_ok n o h.tail.right) fun _ => succeeds_pure
theorem supersuperfyGArg_ok (n : Nat) : ∀ t : GArg, All Parsed (leavesGArg t) →
    Gen.succeeds (supersuperfyGArg n t)
  | .lt _, _ => by simp only [supersuperfyGArg, succeeds_pure]
  | .ty t, h => by
    rw [supersuperfyGArg]
    exact succeeds_seq (supersuperfy_ok n t h) fun _ => succeeds_pure
  | .const _, _ => by simp only [supersuperfyGArg, succeeds_pure]
  | .assocTy _ t, h => by
    rw [supersuperfyGArg]
    exact succeeds_seq (supersuperfy_ok n t h) fun _ => succeeds_pure
  | .assocConst _ _, _ => by simp only [supersuperfyGArg, succeeds_pure]
  | .constraint _ b, h => by
    rw [supersuperfyGArg]
    exact succeeds_seq (supersuperfyBounds_ok n b h) fun _ => succeeds_pure
theorem supersuperfyBound_ok (n : Nat) : ∀ t : Bound, All Parsed (leavesBound t) →
    Gen.succeeds (supersuperfyBound n t)
  | .trait _ _ _ s, h => by
    rw [supersuperfyBound]
    exact succeeds_seq (supersuperfyLast_ok n s h) fun _ => succeeds_pure
  | .lt _, _ => by simp only [supersuperfyBound, succeeds_pure]
  | .other _, _ => by simp only [supersuperfyBound, succeeds_pure]
theorem supersuperfyTys_ok (n : Nat) : ∀ t : List Ty, All Parsed (leavesTys t) →
    Gen.succeeds (supersuperfyTys n t)
  | [], _ => by simp only [supersuperfyTys, succeeds_pure]
  | t :: l, h => by
    rw [supersuperfyTys]
    exact succeeds_seq (supersuperfy_ok n t h.left) fun _ =>
      succeeds_seq (supersuperfyTys_ok n l h.right) fun _ => succeeds_pure
theorem supersuperfyGArgs_ok (n : Nat) : ∀ t : List GArg, All Parsed (leavesGArgs t) →
    Gen.succeeds (supersuperfyGArgs n t)
  | [], _ => by simp only [supersuperfyGArgs, succeeds_pure]
  | t :: l, h => by
    rw [supersuperfyGArgs]
    exact succeeds_seq (supersuperfyGArg_ok n t h.left) fun _ =>
      succeeds_seq (supersuperfyGArgs_ok n l h.right) fun _ => succeeds_pure
theorem supersuperfyBounds_ok (n : Nat) : ∀ t : List Bound, All Parsed (leavesBounds t) →
    Gen.succeeds (supersuperfyBounds n t)
  | [], _ => by simp only [supersuperfyBounds, succeeds_pure]
  | t :: l, h => by
    rw [supersuperfyBounds]
    exact succeeds_seq (supersuperfyBound_ok n t h.left) fun _ =>
      succeeds_seq (supersuperfyBounds_ok n l h.right) fun _ => succeeds_pure
end

/-- C41: every type without macro calls and unparsed tokens is accepted. -/
theorem C41_total (n : Nat) (t : Ty) (h : All Parsed (leaves t)) :
    ∃ t', supersuperfy n t = .ok t' := supersuperfy_ok n t h

/-! ## Where it is false -/

/-- A user's module `crate::a::b` that declares `Foo` and `Range`. -/
def userMod : Place where
  path := ["a", "b"]
  scope x := if x ∈ ["Foo", "Range"] then some ["a", "b", x] else none

/-- The modules generated for `MockFoo` and its method `foo`. -/
def fooMods : List Module :=
  [structModule ["a", "b"] "__mock_MockFoo" ["foo"],
   privModule ["a", "b", "__mock_MockFoo"] "foo" false false]

/-- `super::A<super::B>::C`: the arguments of segments that are not the last. -/
def innerArg : Ty :=
  .path false [.of "super", .mk "A" (.angle [.ty (.path false [.of "super", .of "B"])]), .of "C"]

/-- `[u8; super::N]`. -/
def arrayLen : Ty := .array (.name "u8") (.path false ["super", "N"])

/-- `impl super::Tr`. -/
def implSuper : Ty := .implTrait [.trait false [] false [.of "super", .of "Tr"]]

/-- C41 is false for `super` in the places the code does not look into: it comes out unchanged and
means something else. -/
theorem C41_not_rewritten :
    (∃ t', supersuperfy 2 innerArg = .ok t' ∧
      denote (userMod.nest fooMods) t' ≠ denote userMod innerArg) ∧
    (∃ t', supersuperfy 2 arrayLen = .ok t' ∧
      denote (userMod.nest fooMods) t' ≠ denote userMod arrayLen) ∧
    (∃ t', supersuperfy 2 implSuper = .ok t' ∧
      denote (userMod.nest fooMods) t' ≠ denote userMod implSuper) :=
  ⟨⟨_, rfl, by decide +kernel⟩, ⟨_, rfl, by decide +kernel⟩, ⟨_, rfl, by decide +kernel⟩⟩

/-- C41 is false for `self::super::X`. -/
theorem C41_self_super :
    ∃ t', supersuperfy 2 (.path false [.of "self", .of "super", .of "X"]) = .ok t' ∧
      denote (userMod.nest fooMods) t' ≠
        denote userMod (.path false [.of "self", .of "super", .of "X"]) :=
  ⟨_, rfl, by decide +kernel⟩

/-- C41 is false for a user's type that has the name of one that the generated module imports or
declares itself: `Range` becomes `std::ops::Range`. -/
theorem C41_captured :
    ∃ t', supersuperfy 2 (.name "Range") = .ok t' ∧
      denote (userMod.nest fooMods) t' ≠ denote userMod (.name "Range") :=
  ⟨_, rfl, by decide +kernel⟩

theorem attach_inj {a b : List Ident} (ha : a ≠ []) (hb : b ≠ []) (h : attach a .none = attach b .none) : a = b := by
  have key : ∀ {c : List Ident}, c ≠ [] → attach c .none = .of "crate" :: c.map .of := by
    intro c hc
    obtain ⟨l, x, rfl⟩ : ∃ l x, c = l ++ [x] := ⟨_, _, (List.dropLast_concat_getLast hc).symm⟩
    simp [attach, absolute, Seg.of]
  rw [key ha, key hb] at h
  injection h with _ h
  exact (List.map_inj_right (fun _ _ e => by injection e)).1 h

theorem own_cases (at_ : List Ident) (fn : Ident) (isStatic generic : Bool) (x : Ident) :
    (x ∈ internalNames isStatic generic ∧ ∃ a, (privModule at_ fn isStatic generic).own x = some a ∧
      ((∃ l, a = at_ ++ l ++ [x]) ∨ ∃ l, a = "<extern>" :: l)) ∨
    (x ∉ internalNames isStatic generic ∧ (privModule at_ fn isStatic generic).own x = none) := by
  by_cases c : x ∈ internalNames isStatic generic
  · refine .inl ⟨c, ?_⟩
    have : x = "Rfunc" ∨ x = "Matcher" ∨ x = "Common" ∨ x = "Expectation" ∨ x = "Expectations" ∨ x = "CaseTreeExt" ∨
        x = "Mutex" ∨ x = "Box" ∨ x = "Vec" ∨ x = "mem" ∨ x = "DerefMut" ∨ x = "Range" ∨
        ((x = "ExpectationGuard" ∨ x = "Context" ∨ x = "MutexGuard") ∧ isStatic = true) ∨
        (x = "GenericExpectations" ∧ generic = true) := by
      revert c
      unfold internalNames
      cases isStatic <;> cases generic <;> simp
      all_goals grind
    rcases this with rfl | rfl | rfl | rfl | rfl | rfl | rfl | rfl | rfl | rfl | rfl | rfl | ⟨rfl | rfl | rfl, rfl⟩ | ⟨rfl, rfl⟩ <;>
      first
      | exact ⟨_, rfl, .inr ⟨_, rfl⟩⟩
      | exact ⟨_, rfl, .inl ⟨["__" ++ fn], rfl⟩⟩
      | exact ⟨["<extern>", "std", "sync", "MutexGuard"], by simp [privModule], .inr ⟨_, rfl⟩⟩
  · refine .inr ⟨c, ?_⟩
    unfold internalNames at c
    unfold privModule
    dsimp only
    simp only [List.mem_append, not_or, List.mem_cons, List.not_mem_nil, or_false] at c ⊢
    obtain ⟨⟨⟨c1, c2, c3, c4, c5, c6, c7, c8, c9, c10, c11, c12⟩, d⟩, e⟩ := c
    simp only [c1, c2, c3, c4, c5, c6, c7, c8, c9, c10, c11, c12]
    cases isStatic <;> cases generic <;> simp_all

/-- C41, names of the user's module exactly: in the module for a method or static function of a mock struct a name means
what it meant, unless it is among `internalNames` or the name of one of the struct's generated modules. -/
theorem C41_captured_names (P : Place) (st fn : Ident) (fns : List Ident) (isStatic generic : Bool) (x : Ident)
    (hx : x ∉ ["super", "crate", "self"]) (abs : List Ident) (h : P.scope x = some abs) (hn : abs ≠ [])
    (he : abs.head? ≠ some "<extern>") (hp : ¬ P.path ++ [st] <+: abs) :
    (∃ t', supersuperfy 2 (.name x) = .ok t' ∧
      denote (P.nest [structModule P.path st fns, privModule (P.path ++ [st]) fn isStatic generic]) t' =
        denote P (.name x)) ↔ x ∉ internalNames isStatic generic ∧ x ∉ fns.map ("__" ++ ·) := by
  simp only [List.mem_cons, List.not_mem_nil, or_false, not_or] at hx
  obtain ⟨x1, x2, x3⟩ := hx
  have e : supersuperfy 2 (.name x) = .ok (.name x) := by
    simp [Ty.name, Seg.of, supersuperfy, supersuperfyLast, supersuperfyArgs, addSupers, Seg.id, x1]
  have d : ∀ Q : Place, ∀ a, Q.scope x = some a → denote Q (.name x) = .path false (attach a .none) := by
    intro Q a ha
    simp [Ty.name, Seg.of, denote, denoteSegs, denoteSeg, denoteArgs, resolve, named, Seg.id, Seg.args, x1, x2, x3, ha]
  have dn : ∀ Q : Place, ∀ a, a ≠ [] → Q.scope x = some a → (denote Q (.name x) = denote P (.name x) ↔ a = abs) := by
    intro Q a hne ha
    rw [d Q a ha, d P abs h]
    constructor
    · intro k; injection k with _ k; exact attach_inj hne hn k
    · rintro rfl; rfl
  have red : (∃ t', supersuperfy 2 (.name x) = .ok t' ∧
      denote (P.nest [structModule P.path st fns, privModule (P.path ++ [st]) fn isStatic generic]) t' =
        denote P (.name x)) ↔
      denote (P.nest [structModule P.path st fns, privModule (P.path ++ [st]) fn isStatic generic]) (.name x) =
        denote P (.name x) := by
    rw [e]
    exact ⟨fun ⟨t', h, k⟩ => by injection h with h; subst h; exact k, fun k => ⟨_, rfl, k⟩⟩
  rw [red]
  have sc : (P.nest [structModule P.path st fns, privModule (P.path ++ [st]) fn isStatic generic]).scope x =
      ((privModule (P.path ++ [st]) fn isStatic generic).own x).or
        ((structModule P.path st fns).own x |>.or (P.scope x)) := rfl
  have hne : ∀ l, ¬ P.path ++ [st] ++ l = abs := fun l k => hp ⟨l, k⟩
  have hex : ∀ l, ¬ "<extern>" :: l = abs := by rintro l rfl; exact he rfl
  generalize hQ : P.nest [structModule P.path st fns, privModule (P.path ++ [st]) fn isStatic generic] = Q at sc ⊢
  rcases own_cases (P.path ++ [st]) fn isStatic generic x with ⟨c, a, ha, hl⟩ | ⟨c, ha⟩
  · rw [ha] at sc
    refine ⟨fun k => ?_, fun k => absurd c k.1⟩
    have hne' : a ≠ [] := by rcases hl with ⟨l, rfl⟩ | ⟨l, rfl⟩ <;> simp
    have := (dn Q a hne' sc).1 k
    rcases hl with ⟨l, rfl⟩ | ⟨l, rfl⟩
    · exact absurd this (by rw [List.append_assoc]; exact hne _)
    · exact absurd this (hex _)
  · rw [ha, Option.none_or] at sc
    by_cases c2 : x ∈ fns.map ("__" ++ ·)
    · simp only [structModule, if_pos c2, Option.some_or] at sc
      refine ⟨fun k => ?_, fun k => absurd c2 k.2⟩
      have := (dn Q _ (by simp) sc).1 k
      exact absurd (by simpa using this) (hne [x])
    · simp only [structModule, if_neg c2, Option.none_or, h] at sc
      exact ⟨fun _ => ⟨c, c2⟩, fun _ => (dn Q _ hn sc).2 rfl⟩

/-- The user's own `Range` and `Foo`. -/
theorem C41_captured_names_inhabited :
    userMod.scope "Range" = some ["a", "b", "Range"] ∧ "Range" ∈ internalNames false false ∧
      userMod.scope "Foo" = some ["a", "b", "Foo"] ∧ "Foo" ∉ internalNames true true ∧ "Foo" ∉ ["foo"].map ("__" ++ ·) ∧
      ¬ userMod.path ++ ["__mock_MockFoo"] <+: ["a", "b", "Foo"] := by
  decide +kernel

/-! ## A case where it holds -/

/-- `fn(&super::super::X<super::Y, Foo>, crate::Z) -> <super::T as super::Tr<super::U>>::Out`. -/
def goodTy : Ty :=
  .bareFn [] [.ref none false (.path false [.of "super", .of "super",
      .mk "X" (.angle [.ty (.path false [.of "super", .of "Y"]), .ty (.name "Foo")])]),
      .path false [.of "crate", .of "Z"]]
    (.ty (.qpath (.path false [.of "super", .of "T"]) 2 false
      [.of "super", .of "Tr", .mk "Out" (.angle [.ty (.path false [.of "super", .of "U"])])]))

theorem goodTy_good : ∀ u ∈ uses true goodTy, u.Good fooMods := by
  have h : uses true goodTy = [⟨true, false, ["super", "super", "X"]⟩, ⟨true, false, ["super", "Y"]⟩,
      ⟨true, false, ["Foo"]⟩, ⟨true, false, ["crate", "Z"]⟩, ⟨true, false, ["super", "Tr"]⟩,
      ⟨true, false, ["super", "T"]⟩, ⟨true, false, ["super", "U"]⟩] := by decide +kernel
  intro u hu
  rw [h] at hu
  simp only [List.mem_cons, List.not_mem_nil, or_false] at hu
  rcases hu with rfl | rfl | rfl | rfl | rfl | rfl | rfl <;> simp [Use.Good]
  intro m hm
  simp only [fooMods, List.mem_cons, List.not_mem_nil, or_false] at hm
  rcases hm with rfl | rfl <;> decide

example : (∀ u ∈ uses true goodTy, u.Good fooMods) ∧ All Parsed (leaves goodTy) ∧
    ∃ t', supersuperfy fooMods.length goodTy = .ok t' ∧
      t' ≠ goodTy ∧ denote (userMod.nest fooMods) t' = denote userMod goodTy := by
  refine ⟨goodTy_good, ?_, ?_⟩
  · show ∀ x ∈ _, x ≠ _
    decide
  · exact ⟨_, rfl, by decide +kernel, C41_relative_paths_partial _ _ _ _ goodTy_good rfl⟩

/-- `<T: super::Tr = super::D> where Vec<T>: super::U`. -/
example :
    let g : Generics := ⟨true, [.ty ⟨"T", [.trait false [] false [.of "super", .of "Tr"]],
        some (.path false [.of "super", .of "D"]), []⟩],
      some [.ty none (.path false [.of "super", .of "X"])
        [.trait false [] false [.of "super", .of "U"]]]⟩
    (∀ u ∈ Generics.uses g, u.Good fooMods) ∧
    ∃ g', supersuperfyGenerics fooMods.length g = .ok g' ∧ g' ≠ g := by
  refine ⟨?_, ?_⟩
  · intro u hu
    simp [Generics.uses, GParam.uses, WPred.uses, uses, usesBounds, usesBound, usesSegs, usesSeg,
      usesArgs, Seg.of, Seg.id] at hu
    rcases hu with rfl | rfl | rfl | rfl <;> simp [Use.Good]
  · exact ⟨_, rfl, by decide +kernel⟩

end Mockall.Props
