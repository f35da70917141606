import Verif.Spec.Double
import Verif.Lemmas.Gen

/-! # C48: `#[double]` -/

namespace Mockall.Props

open Derive Double Spec

variable {isUpper : Char → Bool}

theorem toList_ne_nil {s : String} (h : s ≠ "") : s.toList ≠ [] := by
  simpa using h

theorem mockIdent_ok (i : Id) (h : i.name ≠ "") : Gen.succeeds (mockIdent isUpper i) := by
  unfold mockIdent
  split
  · rename_i e
    exfalso
    unfold Id.display at e
    split at e
    · simp at e
    · exact toList_ne_nil h e
  · split <;> exact succeeds_pure

/-- `mock_ident` on an identifier that is not raw. -/
theorem mockIdent_name (i j : Id) (hr : i.raw = false) (h : mockIdent isUpper i = .ok j) :
    j.name = mockName isUpper i.name := by
  unfold mockIdent Id.display at h
  simp only [hr, Bool.false_eq_true, if_false] at h
  unfold mockName
  split at h
  · simp at h
  · rename_i e
    rw [e]
    simp only [List.head?_cons, Option.any_some]
    split at h <;> rename_i hc <;> simp only [gen_pure_ok] at h <;> subst h <;> simp [hc]

theorem mockIdent_prefix (i j : Id) (h : mockIdent isUpper i = .ok j) :
    j.name = "Mock" ++ i.name ∨ j.name = "mock_" ++ i.name := by
  unfold mockIdent at h
  split at h
  · simp at h
  · split at h <;> simp only [gen_pure_ok] at h <;> subst h <;> simp

theorem mock_ne_self (j n : String) (h : j = "Mock" ++ n ∨ j = "mock_" ++ n) : j ≠ "self" := by
  rintro rfl
  rcases h with h | h <;> have := congrArg (fun s => s.toList.head?) h <;> simp at this

theorem mockOf_append (pre : List String) (n as : String) :
    mockOf isUpper ⟨pre ++ [n], as⟩ = ⟨pre ++ [mockName isUpper n], as⟩ := by
  simp [mockOf]

mutual
theorem mockUseTree_bindings : ∀ (t t' : UseTree) (pre : List String), Ordinary t →
    mockUseTree isUpper t = .ok t' → bindings pre t' = (bindings pre t).map (mockOf isUpper)
  | .glob, t', pre, _, h => by simp [mockUseTree] at h
  | .path i t, t', pre, ho, h => by
    simp only [mockUseTree, gen_bind_ok, gen_pure_ok] at h
    obtain ⟨u, hu, rfl⟩ := h
    rw [bindings, bindings, mockUseTree_bindings t u _ ho hu]
  | .group l, t', pre, ho, h => by
    simp only [mockUseTree, gen_bind_ok, gen_pure_ok] at h
    obtain ⟨u, hu, rfl⟩ := h
    rw [bindings, bindings, mockUseTrees_bindings l u _ ho hu]
  | .name i, t', pre, ho, h => by
    simp only [mockUseTree, gen_bind_ok, gen_pure_ok] at h
    obtain ⟨j, hj, rfl⟩ := h
    have hs := mock_ne_self _ _ (mockIdent_prefix i j hj)
    rw [mockIdent_name i j ho.2.1 hj] at hs
    simp only [bindings, bindName, if_neg hs, if_neg ho.1, List.map_cons, List.map_nil, mockOf_append,
      mockIdent_name i j ho.2.1 hj]
  | .rename i a, t', pre, ho, h => by
    simp only [mockUseTree, gen_bind_ok, gen_pure_ok] at h
    obtain ⟨j, hj, rfl⟩ := h
    have hs := mock_ne_self _ _ (mockIdent_prefix i j hj)
    rw [mockIdent_name i j ho.2.1 hj] at hs
    simp only [bindings, bindName, if_neg hs, if_neg ho.1, List.map_cons, List.map_nil, mockOf_append,
      mockIdent_name i j ho.2.1 hj]
theorem mockUseTrees_bindings : ∀ (l l' : List UseTree) (pre : List String), Ordinarys l →
    mockUseTrees isUpper l = .ok l' → bindingss pre l' = (bindingss pre l).map (mockOf isUpper)
  | [], l', pre, _, h => by
    simp only [mockUseTrees, gen_pure_ok] at h
    subst h; rfl
  | t :: l, l', pre, ho, h => by
    simp only [mockUseTrees, gen_bind_ok, gen_pure_ok] at h
    obtain ⟨u, hu, m, hm, rfl⟩ := h
    rw [bindingss, bindingss, List.map_append, mockUseTree_bindings t u pre ho.1 hu,
      mockUseTrees_bindings l m pre ho.2 hm]
end

mutual
theorem mockUseTree_ok : ∀ (t : UseTree), NonEmpty t →
    (Gen.succeeds (mockUseTree isUpper t) ↔ ¬ HasGlob t)
  | .glob, _ => by simp [mockUseTree, HasGlob]
  | .path i t, h => by
    rw [HasGlob, ← mockUseTree_ok t h, mockUseTree, succeeds_bind]
    exact ⟨fun ⟨a, ha, _⟩ => ⟨a, ha⟩, fun ⟨a, ha⟩ => ⟨a, ha, succeeds_pure⟩⟩
  | .group l, h => by
    rw [HasGlob, ← mockUseTrees_ok l h, mockUseTree, succeeds_bind]
    exact ⟨fun ⟨a, ha, _⟩ => ⟨a, ha⟩, fun ⟨a, ha⟩ => ⟨a, ha, succeeds_pure⟩⟩
  | .name i, h => by
    simp only [HasGlob, not_false_eq_true, iff_true, mockUseTree]
    exact succeeds_seq (mockIdent_ok i h) fun _ => succeeds_pure
  | .rename i a, h => by
    simp only [HasGlob, not_false_eq_true, iff_true, mockUseTree]
    exact succeeds_seq (mockIdent_ok i h) fun _ => succeeds_pure
theorem mockUseTrees_ok : ∀ (l : List UseTree), NonEmptys l →
    (Gen.succeeds (mockUseTrees isUpper l) ↔ ¬ HasGlobs l)
  | [], _ => by simp [mockUseTrees, HasGlobs]
  | t :: l, h => by
    rw [HasGlobs, not_or, ← mockUseTree_ok t h.1, ← mockUseTrees_ok l h.2, mockUseTrees, succeeds_bind]
    simp only [succeeds_bind, succeeds_pure, and_true]
    exact ⟨fun ⟨a, ha, b, hb⟩ => ⟨⟨a, ha⟩, ⟨b, hb⟩⟩, fun ⟨⟨a, ha⟩, ⟨b, hb⟩⟩ => ⟨a, ha, b, hb⟩⟩
end

/-- C48, as far as it holds: without `cfg(test)` the import is as it was; with it, it binds the same local
names in the same order, each to the mock of its item.  Missing: `self` in a group (`C48_self`) and raw
identifiers (`C48_raw`). -/
theorem C48_double_partial (t real mock : UseTree) (ho : Ordinary t)
    (h : doubleUse isUpper t = .ok (real, mock)) :
    real = t ∧ bindings [] mock = (bindings [] t).map (mockOf isUpper) ∧
      (bindings [] mock).map Binding.local_ = (bindings [] t).map Binding.local_ := by
  simp only [doubleUse, gen_bind_ok, gen_pure_ok, Prod.mk.injEq] at h
  obtain ⟨m, hm, rfl, rfl⟩ := h
  have key : bindings [] m = (bindings [] t).map (mockOf isUpper) := by
    unfold mockItemUse at hm
    split at hm
    · simp at hm
    · exact mockUseTree_bindings _ _ _ ho hm
  refine ⟨rfl, key, ?_⟩
  rw [key, List.map_map]
  rfl

/-- C48 (rejection): exactly for glob imports and for a bare name at the top. -/
theorem C48_rejected (t : UseTree) (hn : NonEmpty t) :
    Gen.succeeds (doubleUse isUpper t) ↔ ¬ HasGlob t ∧ ∀ i, t ≠ .name i := by
  have : Gen.succeeds (doubleUse isUpper t) ↔ Gen.succeeds (mockItemUse isUpper t) := by
    simp only [doubleUse, succeeds_bind, succeeds_pure, and_true]
    exact Iff.rfl
  rw [this]
  cases t with
  | name i => simp [mockItemUse]
  | _ => simp only [mockItemUse, mockUseTree_ok _ hn]; simp

/-- ASCII is enough for the witnesses. -/
def asciiUpper (c : Char) : Bool := c.isUpper

/-- `use foo::{self}` becomes `use foo::{mock_self as self}`: it imports the wrong thing under a wrong
name, which is not even Rust. -/
theorem C48_self :
    ∃ t mock, doubleUse asciiUpper t = .ok (t, mock) ∧
      bindings [] t = [⟨["foo"], "foo"⟩] ∧ bindings [] mock = [⟨["foo", "mock_self"], "self"⟩] :=
  ⟨.path ⟨"foo", false⟩ (.group [.name ⟨"self", false⟩]), _, rfl, rfl, rfl⟩

/-- `use foo::r#Foo`, which is the same as `use foo::Foo`, imports `mock_Foo` and not `MockFoo`. -/
theorem C48_raw :
    ∃ t u m m', doubleUse asciiUpper t = .ok (t, m) ∧ doubleUse asciiUpper u = .ok (u, m') ∧
      bindings [] t = bindings [] u ∧ bindings [] m ≠ bindings [] m' :=
  ⟨.path ⟨"foo", false⟩ (.name ⟨"Foo", true⟩), .path ⟨"foo", false⟩ (.name ⟨"Foo", false⟩), _, _,
    rfl, rfl, rfl, by decide +kernel⟩

/-- `use a::{b::Foo, c as d, e::{f, G as H}};` -/
example :
    let n (s : String) : Id := ⟨s, false⟩
    let t : UseTree := .path (n "a") (.group [.path (n "b") (.name (n "Foo")), .rename (n "c") (n "d"),
      .path (n "e") (.group [.name (n "f"), .rename (n "G") (n "H")])])
    Ordinary t ∧ NonEmpty t ∧ ∃ m, doubleUse asciiUpper t = .ok (t, m) ∧
      bindings [] m = [⟨["a", "b", "MockFoo"], "Foo"⟩, ⟨["a", "mock_c"], "d"⟩,
        ⟨["a", "e", "mock_f"], "f"⟩, ⟨["a", "e", "MockG"], "H"⟩] := by
  refine ⟨by simp [Ordinary, Ordinarys], by simp [NonEmpty, NonEmptys], _, rfl, by decide +kernel⟩

/-! ## C58: type aliases -/

theorem mockLast_ok (i : Ident) (a : Args) : ∀ (l l' : List Seg), i ≠ "" →
    mockItemType.mockLast isUpper (l ++ [.mk i a]) = .ok l' → l' = l ++ [.mk (mockName isUpper i) a]
  | [], l', _, h => by
    simp only [List.nil_append, mockItemType.mockLast, gen_bind_ok, gen_pure_ok] at h
    obtain ⟨j, hj, rfl⟩ := h
    rw [mockIdent_name _ _ rfl hj]; rfl
  | s :: l, l', hi, h => by
    obtain ⟨t, m, e⟩ : ∃ t m, l ++ [Seg.mk i a] = t :: m := by
      cases l with
      | nil => exact ⟨_, _, rfl⟩
      | cons t m => exact ⟨t, m ++ [.mk i a], rfl⟩
    rw [List.cons_append, e] at h
    simp only [mockItemType.mockLast, gen_bind_ok, gen_pure_ok] at h
    obtain ⟨m', hm, rfl⟩ := h
    rw [← e] at hm
    rw [mockLast_ok i a l m' hi hm]; rfl

/-- C58: `#[double] type A = path::Foo<T>` is made an alias of `path::MockFoo<T>`: the same path, with the
same arguments everywhere, whose last segment is the mock's name. -/
theorem C58_type_alias (c : Bool) (l : List Seg) (i : Ident) (a : Args) (hi : i ≠ "") :
    (∀ t, mockItemType isUpper (.path c (l ++ [.mk i a])) = .ok t →
      t = .path c (l ++ [.mk (mockName isUpper i) a])) ∧
    ∀ q p t, mockItemType isUpper (.qpath q p c (l ++ [.mk i a])) = .ok t →
      t = .qpath q p c (l ++ [.mk (mockName isUpper i) a]) := by
  constructor
  · intro t h
    simp only [mockItemType, gen_bind_ok, gen_pure_ok] at h
    obtain ⟨s, hs, rfl⟩ := h
    rw [mockLast_ok i a l s hi hs]
  · intro q p t h
    simp only [mockItemType, gen_bind_ok, gen_pure_ok] at h
    obtain ⟨s, hs, rfl⟩ := h
    rw [mockLast_ok i a l s hi hs]

theorem mockLast_succeeds : ∀ (l : List Seg), l ≠ [] → (∀ s ∈ l, s.id ≠ "") →
    Gen.succeeds (mockItemType.mockLast isUpper l)
  | [], h, _ => absurd rfl h
  | [.mk i a], _, h =>
    succeeds_seq (mockIdent_ok _ (h _ List.mem_cons_self)) fun _ => succeeds_pure
  | s :: t :: l, _, h => by
    rw [mockItemType.mockLast]
    exact succeeds_seq (mockLast_succeeds (t :: l) (by simp) fun s hs => h s (List.mem_cons_of_mem _ hs))
      fun _ => succeeds_pure

/-- C58: exactly the path types are accepted. -/
theorem C58_type_rejected (t : Ty)
    (ht : ∀ c l, (t = .path c l ∨ ∃ q p, t = .qpath q p c l) → l ≠ [] ∧ ∀ s ∈ l, s.id ≠ "") :
    Gen.succeeds (mockItemType isUpper t) ↔
      ∃ c l, t = .path c l ∨ ∃ q p, t = .qpath q p c l := by
  cases t with
  | path c l =>
    have := ht c l (.inl rfl)
    simp only [mockItemType]
    exact ⟨fun _ => ⟨c, l, .inl rfl⟩,
      fun _ => succeeds_seq (mockLast_succeeds l this.1 this.2) fun _ => succeeds_pure⟩
  | qpath q p c l =>
    have := ht c l (.inr ⟨q, p, rfl⟩)
    simp only [mockItemType]
    exact ⟨fun _ => ⟨c, l, .inr ⟨q, p, rfl⟩⟩,
      fun _ => succeeds_seq (mockLast_succeeds l this.1 this.2) fun _ => succeeds_pure⟩
  | _ => simp [mockItemType]

/-- `type A = bar::Baz<u32>;` -/
example : mockItemType asciiUpper
    (.path false [.of "bar", .mk "Baz" (.angle [.ty (.name "u32")])]) =
    .ok (.path false [.of "bar", .mk "MockBaz" (.angle [.ty (.name "u32")])]) := by rfl

end Mockall.Props
