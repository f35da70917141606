import Verif.Spec.Attrs

/-! # C47: attributes -/

namespace Mockall.Props

open Derive Spec

theorem hasSub_iff (p : List Char) : ∀ l : List Char, hasSub p l = true ↔ ∃ a b, l = a ++ p ++ b
  | [] => by
    cases p with
    | nil => simp [hasSub]
    | cons c p => simp [hasSub]
  | c :: l => by
    rw [hasSub, Bool.or_eq_true, hasSub_iff p l, List.isPrefixOf_iff_prefix]
    constructor
    · rintro (⟨b, h⟩ | ⟨a, b, h⟩)
      · exact ⟨[], b, by simpa using h.symm⟩
      · exact ⟨c :: a, b, by simp [h]⟩
    · rintro ⟨a, b, h⟩
      cases a with
      | nil => exact .inl ⟨b, by simpa using h.symm⟩
      | cons d a =>
        simp only [List.cons_append, List.cons.injEq] at h
        exact .inr ⟨a, b, h.2⟩

theorem strContains_self (s : String) : strContains s s = true :=
  (hasSub_iff _ _).2 ⟨[], [], by simp⟩

theorem isConcretize_of (a : Attr) (h : IsConcretize a) : isConcretize a = true := by
  cases h with
  | plain i a => simp [isConcretize]
  | cfg p as i a h =>
    rw [isConcretize, List.any_eq_true]
    refine ⟨"concretize", ?_, strContains_self _⟩
    rw [cfgTokens, List.mem_append, List.mem_flatMap]
    exact .inr ⟨_, h, by simp⟩

theorem isConcretize_iff (a : Attr) (h : Plain a) : isConcretize a = true ↔ IsConcretize a := by
  refine ⟨fun k => ?_, isConcretize_of a⟩
  cases a with
  | plain i l x =>
    simp only [isConcretize, decide_eq_true_eq] at k
    subst k
    exact .plain i x
  | cfgAttr p as =>
    rcases h with ⟨i, a, h⟩ | h
    · exact .cfg p as i a h
    · rw [isConcretize, List.any_eq_true] at k
      obtain ⟨s, hs, k⟩ := k
      exact absurd ((hasSub_iff _ _).1 k) (h s hs)

theorem named_iff (n : Ident) (a : Attr) (h : n ≠ "cfg_attr") : Named n a ↔ a.last = n := by
  cases a with
  | plain i l x =>
    constructor
    · rintro ⟨⟩; rfl
    · rintro rfl; exact .mk i x
  | cfgAttr p as =>
    constructor
    · intro k; cases k
    · intro k; exact absurd k.symm h

/-- The filter keeps exactly what is not stripped, if it takes nothing for `concretize` that is not. -/
theorem keep_iff (f : AttrFormatter) (a : Attr) (h : isConcretize a = true ↔ IsConcretize a) :
    f.keep a = true ↔ ¬ Stripped f.doc f.asyncTrait f.mustUse a := by
  have n (m : Ident) (hm : m ≠ "cfg_attr") := named_iff m a hm
  unfold Stripped neverEmitted
  simp only [List.mem_cons, List.not_mem_nil, or_false, exists_eq_or_imp, exists_eq_left,
    n "derive" (by decide), n "expect" (by decide), n "inline" (by decide), n "cold" (by decide),
    n "instrument" (by decide), n "link_name" (by decide), n "auto_enum" (by decide),
    n "doc" (by decide), n "async_trait" (by decide), n "must_use" (by decide), ← h]
  unfold AttrFormatter.keep
  by_cases c : isConcretize a = true
  · simp [c]
  · generalize a.last = l
    simp only [c, Bool.false_eq_true, if_false, false_or]
    repeat' split
    all_goals (try subst l)
    all_goals simp_all (config := { decide := true })

theorem format_without (P : Attr → Prop) (f : AttrFormatter) : ∀ l : List Attr,
    (∀ a ∈ l, f.keep a = true ↔ ¬ P a) → Without P l (f.format l)
  | [], _ => .nil
  | a :: l, h => by
    have ih := format_without P f l fun b hb => h b (List.mem_cons_of_mem _ hb)
    have ha := h a List.mem_cons_self
    unfold AttrFormatter.format at ih ⊢
    rw [List.filter_cons]
    split
    · rename_i k; exact .keep (ha.1 k) ih
    · rename_i k; exact .skip (Classical.not_not.1 fun e => k (ha.2 e)) ih

/-- C47, as far as it holds: the attributes emitted are the user's, in order, without those that are to be
stripped.  Missing: a `cfg_attr` that contains the text `concretize` anywhere else
(`C47_lost`). -/
theorem C47_filter_partial (f : AttrFormatter) (l : List Attr) (h : ∀ a ∈ l, Plain a) :
    Without (Stripped f.doc f.asyncTrait f.mustUse) l (f.format l) :=
  format_without _ f l fun a ha => keep_iff f a (isConcretize_iff a (h a ha))

/-- Without the restriction: what is emitted is in order and was not to be stripped; and what is lost
besides is a `cfg_attr`. -/
theorem C47_sound (f : AttrFormatter) (l : List Attr) :
    (f.format l).Sublist l ∧
    (∀ a ∈ f.format l, ¬ Stripped f.doc f.asyncTrait f.mustUse a) ∧
    ∀ a ∈ l, a ∉ f.format l → Stripped f.doc f.asyncTrait f.mustUse a ∨ ∃ p as, a = .cfgAttr p as := by
  refine ⟨List.filter_sublist, fun a ha => ?_, fun a ha hn => ?_⟩
  · have ha := (List.mem_filter.1 ha).2
    have c : isConcretize a = false := by
      cases c : isConcretize a with
      | false => rfl
      | true => simp [AttrFormatter.keep, c] at ha
    refine (keep_iff f a ⟨fun k => ?_, isConcretize_of a⟩).1 ha
    rw [c] at k; cases k
  · cases a with
    | cfgAttr p as => exact .inr ⟨p, as, rfl⟩
    | plain i n x =>
      left
      apply Classical.not_not.1
      intro k
      exact hn (List.mem_filter.2 ⟨ha, (keep_iff f _ (isConcretize_iff (.plain i n x) trivial)).2 k⟩)

/-- `#[cfg_attr(feature = "no_concretize", allow(dead_code))]` is lost. -/
theorem C47_lost : ∃ a, ¬ Stripped true true true a ∧
    ({ doc := true, asyncTrait := true, mustUse := true } : AttrFormatter).format [a] = [] := by
  refine ⟨.cfgAttr ["feature", "\"no_concretize\""] [([], "allow", ["dead_code"])], ?_, by
    decide +kernel⟩
  rintro (h | ⟨n, -, h⟩ | ⟨h, -⟩ | ⟨h, -⟩ | ⟨h, -⟩)
  · cases h with
    | cfg _ _ i a h => simp at h
  · cases h
  all_goals cases h

/-- On the mocked method `must_use` is kept, on the expectation's builder `doc` is not. -/
example :
    let l : List Attr := [.plain [] "doc" ["text"], .plain [] "must_use" [], .plain [] "cfg" ["unix"],
      .plain ["tracing"] "instrument" [], .cfgAttr ["test"] [(["mockall"], "concretize", [])],
      .plain [] "allow" ["dead_code"]]
    (∀ a ∈ l, Plain a) ∧
    ({ mustUse := true } : AttrFormatter).format l =
      [.plain [] "doc" ["text"], .plain [] "must_use" [], .plain [] "cfg" ["unix"],
        .plain [] "allow" ["dead_code"]] ∧
    ({ doc := false } : AttrFormatter).format l =
      [.plain [] "cfg" ["unix"], .plain [] "allow" ["dead_code"]] := by
  refine ⟨?_, by decide +kernel, by decide +kernel⟩
  simp [Plain]

end Mockall.Props
