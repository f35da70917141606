import Verif.Rt.Method

/-! # Helper lemmas: the scan over expectations -/

namespace Mockall

variable {V : Type}

/-- `e`'s matcher accepts the arguments (and does not panic). -/
def Expectation.acc (tid : Nat) (args : List V) (e : Expectation V) : Bool :=
  match (e.matches tid args).1 with
  | .ok b => b
  | .error _ => false

/-- `e` has been called its maximum number of times. -/
def Expectation.full (e : Expectation V) : Bool := decide (e.common.times.count ≥ e.common.times.range.end_ - 1)

theorem Expectation.matches_ok {tid : Nat} {args : List V} {e e' : Expectation V} {b : Bool}
    (h : e.matches tid args = (.ok b, e')) : e' = e ∧ e.acc tid args = b := by
  unfold Expectation.acc
  rw [h]
  refine ⟨?_, rfl⟩
  unfold Expectation.matches Common.matches at h
  simp only at h
  split at h
  · simp at h
  · split at h <;> simp at h
    exact h.2.symm

theorem Expectation.isDone_ok {e : Expectation V} (h : 0 < e.common.times.range.end_) :
    e.isDone = .ok e.full := by
  unfold Expectation.isDone Common.isDone Times.isDone subOne Expectation.full
  have : e.common.times.range.end_ ≠ 0 := by omega
  simp [this]

/-- Predicates of all expectations evaluate without panicking on these arguments. -/
def NoPredPanic (tid : Nat) (args : List V) (es : List (Expectation V)) : Prop :=
  ∀ e ∈ es, ∃ b, (e.matches tid args).1 = .ok b

/-- All count windows have a positive exclusive end (true of every `times` argument but `..0`). -/
def PosEnds (es : List (Expectation V)) : Prop := ∀ e ∈ es, 0 < e.common.times.range.end_

/-- Lift a result of `Expectation.call` to one of `Expectations.call`. -/
def liftRes : Except Panic V → Except Panic (Option V)
  | .ok v => .ok (some v)
  | .error p => .error p

theorem callScan_eq (cx : Cx V) (info : FnInfo V) (args : List V) (n : Nat)
    (es : List (Expectation V)) (w : World V)
    (hm : NoPredPanic cx.tid args es) (hp : PosEnds es) :
    callScan cx info args n es w =
      match es.findIdx? (fun e => e.acc cx.tid args && (!e.full || n == 1)) with
      | none => (.ok none, es, w)
      | some i =>
        match es[i]? with
        | none => (.ok none, es, w)
        | some e =>
          (liftRes (e.call cx info args w).1, es.set i (e.call cx info args w).2.1,
            (e.call cx info args w).2.2) := by
  induction es with
  | nil => simp [callScan]
  | cons e es ih =>
    have hm' : NoPredPanic cx.tid args es := fun x hx => hm x (List.mem_cons_of_mem _ hx)
    have hp' : PosEnds es := fun x hx => hp x (List.mem_cons_of_mem _ hx)
    have ih := ih hm' hp'
    obtain ⟨b, hb⟩ := hm e (List.mem_cons_self ..)
    have hpe := hp e (List.mem_cons_self ..)
    rcases hx : e.matches cx.tid args with ⟨r, e'⟩
    rw [hx] at hb
    simp only at hb
    subst hb
    obtain ⟨he, hacc⟩ := Expectation.matches_ok hx
    subst he
    unfold callScan
    rw [hx]
    cases b with
    | false =>
      simp only
      rw [ih]
      rw [List.findIdx?_cons]
      simp only [hacc, Bool.false_and, Bool.false_eq_true, ↓reduceIte]
      cases hf : es.findIdx? (fun e => e.acc cx.tid args && (!e.full || n == 1)) with
      | none => simp
      | some i =>
        simp only [Option.map_some, List.getElem?_cons_succ, List.set_cons_succ]
        cases hg : es[i]? <;> simp
    | true =>
      simp only
      rw [Expectation.isDone_ok hpe]
      simp only
      rw [List.findIdx?_cons]
      simp only [hacc, Bool.true_and]
      cases hdn : (!e'.full || n == 1) with
      | true =>
        simp only [↓reduceIte, List.getElem?_cons_zero, List.set_cons_zero]
        rcases e'.call cx info args w with ⟨r, e2, w2⟩
        cases r <;> rfl
      | false =>
        simp only [Bool.false_eq_true, ↓reduceIte]
        rw [ih]
        cases hf : es.findIdx? (fun e => e.acc cx.tid args && (!e.full || n == 1)) with
        | none => simp
        | some i =>
          simp only [Option.map_some, List.getElem?_cons_succ, List.set_cons_succ]
          cases hg : es[i]? <;> simp

end Mockall
