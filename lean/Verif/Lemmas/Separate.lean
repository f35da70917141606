import Verif.Spec.Separate

/-! # Parts of a program: lemmas about the reference semantics -/

namespace Mockall.Props

open Spec Spec.Ref

variable {V : Type} {P : Part}

/-- The sequences of the expectations are in the part, or not. -/
def InSeqs (P : Part) (v : Bool) (es : List (Exp V)) : Prop :=
  ∀ e ∈ es, ∀ sid pos, e.place = some (sid, pos) → P.seq sid = v

/-- The counts of the part's sequences are the same. -/
def SameCounts (P : Part) (c c' : Counts) : Prop := ∀ sid, P.seq sid = true → c sid = c' sid

/-! ## Builders -/

theorem bump_same {c c' : Counts} {i : Nat} (h : SameCounts P c c') : SameCounts P (c.bump i) (c'.bump i) := by
  intro sid hs
  simp only [Counts.bump]
  split <;> simp [h sid hs]

theorem bump_other {c c' : Counts} {i : Nat} (hi : P.seq i = false) (h : SameCounts P c c') :
    SameCounts P (c.bump i) c' := by
  intro sid hs
  have : sid ≠ i := fun e => by rw [e, hi] at hs; cases hs
  simp [Counts.bump, this, h sid hs]

theorem configure_place {v : Bool} : ∀ {bs : List (Build V)} {e : Exp V} {j : Counts},
    (∀ sid, .inSequence sid ∈ bs → P.seq sid = v) → (∀ sid pos, e.place = some (sid, pos) → P.seq sid = v) →
    ∀ sid pos, (e.configure j bs).2.1.place = some (sid, pos) → P.seq sid = v
  | [], e, j, _, he => he
  | b :: bs, e, j, hb, he => by
    have hb' : ∀ sid, .inSequence sid ∈ bs → P.seq sid = v := fun sid h => hb sid (List.mem_cons_of_mem _ h)
    unfold Exp.configure
    split
    · exact he
    · split
      · rename_i sid _
        refine configure_place hb' fun i p h => ?_
        cases h
        exact hb sid List.mem_cons_self
      · exact configure_place hb' he

theorem configure_other : ∀ {bs : List (Build V)} {e : Exp V} {j j' : Counts},
    (∀ sid, .inSequence sid ∈ bs → P.seq sid = false) → SameCounts P j j' → SameCounts P (e.configure j bs).2.2 j'
  | [], e, j, j', _, h => h
  | b :: bs, e, j, j', hb, h => by
    have hb' : ∀ sid, .inSequence sid ∈ bs → P.seq sid = false := fun sid k => hb sid (List.mem_cons_of_mem _ k)
    unfold Exp.configure
    split
    · exact h
    · split
      · rename_i sid _
        exact configure_other hb' (bump_other (hb sid List.mem_cons_self) h)
      · exact configure_other hb' h

theorem configure_same : ∀ {bs : List (Build V)} {e : Exp V} {j j' : Counts},
    (∀ sid, .inSequence sid ∈ bs → P.seq sid = true) → SameCounts P j j' →
    (e.configure j bs).1 = (e.configure j' bs).1 ∧ (e.configure j bs).2.1 = (e.configure j' bs).2.1 ∧
      SameCounts P (e.configure j bs).2.2 (e.configure j' bs).2.2
  | [], e, j, j', _, h => ⟨rfl, rfl, h⟩
  | b :: bs, e, j, j', hb, h => by
    have hb' : ∀ sid, .inSequence sid ∈ bs → P.seq sid = true := fun sid k => hb sid (List.mem_cons_of_mem _ k)
    unfold Exp.configure
    split
    · exact ⟨rfl, rfl, h⟩
    · split
      · rename_i sid _
        rw [h sid (hb sid List.mem_cons_self)]
        exact configure_same hb' (bump_same h)
      · exact configure_same hb' h

/-! ## Calls -/

theorem reply_place (c : Call V) (e : Exp V) : (e.reply c).2.place = e.place := by
  unfold Exp.reply
  simp only
  repeat' split
  all_goals rfl

theorem take_place (c : Call V) (t : Counts) (e : Exp V) : (e.take c t).2.1.place = e.place := by
  unfold Exp.take
  simp only
  repeat' split
  all_goals first | rfl | (simp only [reply_place])

theorem take_other {c : Call V} {t t' : Counts} {e : Exp V} (he : ∀ sid pos, e.place = some (sid, pos) → P.seq sid = false)
    (h : SameCounts P t t') : SameCounts P (e.take c t).2.2 t' := by
  unfold Exp.take
  simp only
  repeat' split
  all_goals first | exact h | exact bump_other (he _ _ (by assumption)) h

theorem take_same {c : Call V} {t t' : Counts} {e : Exp V} (he : ∀ sid pos, e.place = some (sid, pos) → P.seq sid = true)
    (h : SameCounts P t t') : (e.take c t).1 = (e.take c t').1 ∧ (e.take c t).2.1 = (e.take c t').2.1 ∧
      SameCounts P (e.take c t).2.2 (e.take c t').2.2 := by
  unfold Exp.take
  split
  · exact ⟨rfl, rfl, h⟩
  · split
    · exact ⟨rfl, rfl, h⟩
    · split
      · exact ⟨rfl, rfl, h⟩
      · simp only
        split
        · exact ⟨rfl, rfl, h⟩
        · cases hp : e.place with
          | none => exact ⟨rfl, rfl, h⟩
          | some x =>
            obtain ⟨sid, pos⟩ := x
            simp only [← h sid (he sid pos hp)]
            split
            · refine ⟨rfl, rfl, ?_⟩
              simp only
              split
              · exact bump_same h
              · exact h
            · exact ⟨rfl, rfl, h⟩

theorem dispatch_some {c : Call V} {t : Counts} {es : List (Exp V)} {r} (h : dispatch c t es = some r) :
    ∃ i e, es.findIdx? (·.stops c (es.length == 1)) = some i ∧ es[i]? = some e ∧
      r = ((e.take c t).1, es.set i (e.take c t).2.1, (e.take c t).2.2) := by
  simp only [dispatch, Option.bind_eq_bind, Option.bind_eq_some_iff, Option.pure_def, Option.some.injEq] at h
  obtain ⟨i, h1, e, h2, h3⟩ := h
  exact ⟨i, e, h1, h2, h3.symm⟩

theorem dispatch_place {v : Bool} {c : Call V} {t : Counts} {es : List (Exp V)} {r} (hs : InSeqs P v es)
    (h : dispatch c t es = some r) : InSeqs P v r.2.1 := by
  obtain ⟨i, e, -, h2, rfl⟩ := dispatch_some h
  intro x hx sid pos hp
  rcases List.mem_or_eq_of_mem_set hx with hx | rfl
  · exact hs x hx sid pos hp
  · rw [take_place] at hp
    exact hs e (List.mem_of_getElem? h2) sid pos hp

theorem dispatch_other {c : Call V} {t t' : Counts} {es : List (Exp V)} {r} (hs : InSeqs P false es)
    (h : dispatch c t es = some r) (ht : SameCounts P t t') : SameCounts P r.2.2 t' := by
  obtain ⟨i, e, -, h2, rfl⟩ := dispatch_some h
  exact take_other (fun sid pos => hs e (List.mem_of_getElem? h2) sid pos) ht

/-- Both calls find nothing, or they find the same. -/
theorem dispatch_same {c : Call V} {t t' : Counts} {es : List (Exp V)} (hs : InSeqs P true es) (ht : SameCounts P t t') :
    (dispatch c t es = none ∧ dispatch c t' es = none) ∨ ∃ x es' u u', dispatch c t es = some (x, es', u) ∧
      dispatch c t' es = some (x, es', u') ∧ SameCounts P u u' := by
  cases hi : es.findIdx? (·.stops c (es.length == 1)) with
  | none => left; simp [dispatch, hi]
  | some i =>
    cases he : es[i]? with
    | none => left; simp [dispatch, hi, he]
    | some e =>
      right
      obtain ⟨k1, k2, k3⟩ := take_same (c := c) (fun sid pos => hs e (List.mem_of_getElem? he) sid pos) ht
      refine ⟨(e.take c t).1, es.set i (e.take c t).2.1, (e.take c t).2.2, (e.take c t').2.2, ?_, ?_, k3⟩
      · simp [dispatch, hi, he]
      · simp [dispatch, hi, he, k1, k2]

end Mockall.Props
