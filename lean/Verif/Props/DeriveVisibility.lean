import Verif.Spec.Visibility

/-! # C49: the visibility of expectations -/

namespace Mockall.Props

open Derive Spec

theorem climb_supers : ∀ (n : Nat) (at_ ms p : List Ident), ms.length = n →
    ascend (at_ ++ ms) (List.replicate n "super" ++ p) = ascend at_ p
  | 0, at_, ms, p, h => by
    rw [List.length_eq_zero_iff.1 h]; simp
  | n + 1, at_, ms, p, h => by
    have hne : ms ≠ [] := by intro e; simp [e] at h
    rw [List.replicate_succ, List.cons_append, ascend, if_pos rfl, if_neg (by simp [hne]),
      List.dropLast_append_of_ne_nil hne, climb_supers n at_ ms.dropLast p (by simp [h])]

theorem resolve_supers (at_ ms p : List Ident) (hms : ms ≠ []) :
    resolveMod (at_ ++ ms) (List.replicate ms.length "super" ++ p) = ascend at_ p := by
  rw [← climb_supers ms.length at_ ms p rfl]
  obtain ⟨n, hn⟩ : ∃ n, ms.length = n + 1 := by
    cases ms with
    | nil => exact absurd rfl hms
    | cons x l => exact ⟨l.length, rfl⟩
  rw [hn, List.replicate_succ, List.cons_append, resolveMod]
  rfl

/-- C49, as far as it holds: in a module nested deeper by the path `ms`, the adjusted visibility means the
same scope as the declared one where the user wrote it.  Missing: `pub(self)` and `pub(in self::..)`
(`C49_self`). -/
theorem C49_scope_partial (at_ ms : List Ident) (vis : Vis) (s : Scope) (h : scope at_ vis = some s)
    (hs : ∀ i p, vis ≠ .restricted i ("self" :: p)) :
    scope (at_ ++ ms) (expectationVisibility vis ms.length) = some s := by
  by_cases hms : ms = []
  · subst hms; simpa [expectationVisibility] using h
  have hl : ms.length ≠ 0 := by simpa using hms
  have pre : ∀ t : List Ident, t <+: at_ → t <+: at_ ++ ms := fun t ht =>
    ht.trans (List.prefix_append _ _)
  rw [expectationVisibility.eq_def, if_neg hl]
  cases vis with
  | pub => exact h
  | inherited =>
    have e : "super" :: List.replicate (ms.length - 1) "super" =
        List.replicate ms.length "super" ++ [] := by
      rw [← List.replicate_succ, Nat.sub_add_cancel (Nat.pos_of_ne_zero hl), List.append_nil]
    simp only [scope, Bool.true_eq_false, false_and, if_false, e, resolve_supers at_ ms [] hms, ascend]
    rw [if_pos (List.prefix_append _ _)]
    exact h
  | restricted i p =>
    rw [scope] at h
    split at h
    · cases h
    · rename_i hi
      split at h
      · cases h
      · rename_i t ht
        split at h
        · rename_i htp
          cases h
          cases p with
          | nil => simp [resolveMod] at ht
          | cons q p =>
            rw [resolveMod] at ht
            by_cases hc : q = "crate"
            · subst hc
              simp only [List.head?_cons, if_true]
              rw [scope, if_neg hi]
              simp only [resolveMod, if_true] at ht ⊢
              rw [ht]
              simp only [pre t htp, if_true]
            · rw [if_neg hc] at ht
              have hq : q ≠ "self" := by rintro rfl; exact hs i p rfl
              rw [if_neg hq] at ht
              by_cases hu : q = "super"
              · rw [if_pos hu] at ht
                simp only [List.head?_cons, Option.some.injEq, hc, if_false]
                simp only [scope, Bool.true_eq_false, false_and, if_false,
                  resolve_supers at_ ms (q :: p) hms, ht, pre t htp, if_true]
              · rw [if_neg hu] at ht; cases ht
        · cases h

/-- `pub(self)` and `pub(in self::..)`, which mean the same as a private item or a `super`, become paths
like `super::super::self`, which are not Rust, at every level. -/
theorem C49_self (at_ ms : List Ident) (hms : ms ≠ []) (i : Bool) (p : List Ident) :
    scope (at_ ++ ms) (expectationVisibility (.restricted i ("self" :: p)) ms.length) = none := by
  have hl : ms.length ≠ 0 := by simpa using hms
  simp only [expectationVisibility, if_neg hl, List.head?_cons, Option.some.injEq,
    show ("self" : String) ≠ "crate" by decide, if_false, scope, Bool.true_eq_false, false_and,
    resolve_supers at_ ms _ hms]
  have : ascend at_ ("self" :: p) = none := by
    rw [ascend, if_neg (by decide), descend, if_neg]
    intro h
    exact (h "self" List.mem_cons_self).2.1 rfl
  rw [this]

/-- Yet they are what users may write. -/
example : scope ["a", "b"] (.restricted false ["self"]) = some (.within ["a", "b"]) := by
  decide +kernel

/-- In the module `a::b`, seen from `a::b::__mock_MockFoo::__foo`. -/
example :
    scope ["a", "b"] (.restricted false ["super"]) = some (.within ["a"]) ∧
    expectationVisibility (.restricted false ["super"]) 2 =
      .restricted true ["super", "super", "super"] ∧
    scope ["a", "b", "__mock_MockFoo", "__foo"] (.restricted true ["super", "super", "super"]) =
      some (.within ["a"]) ∧
    scope ["a", "b"] .inherited = some (.within ["a", "b"]) ∧
    scope ["a", "b", "__mock_MockFoo", "__foo"] (expectationVisibility .inherited 2) =
      some (.within ["a", "b"]) := by
  decide +kernel

end Mockall.Props
