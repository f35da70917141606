import Verif.Lemmas.Evo

/-! # Helper lemmas: what `Expectation.call` changes -/

set_option linter.unusedSimpArgs false

namespace Mockall

variable {V : Type}

theorem Common.call_eq (func desc : String) (c : Common V) (q : Seqs) :
    (c.call func desc q).2.1 = { c with times := { c.times with count := atomicInc c.times.count } } := by
  unfold Common.call Times.call
  simp only
  repeat' split
  all_goals simp_all

/-- Only the sequence of the expectation's own handle can change, and only its level, by one. -/
theorem Common.call_seqs (func desc : String) (c : Common V) (q : Seqs) :
    (c.call func desc q).2.2 = q ∨
    ∃ h, c.seqHandle = some h ∧
      (c.call func desc q).2.2 = q.set h.sid { q h.sid with level := (q h.sid).level + 1 } := by
  unfold Common.call Common.satisfySequence Seqs.satisfy
  simp only
  repeat' split
  all_goals simp_all

/-- What `ret_call` leaves alone. -/
theorem Expectation.ret_call_frame (cx : Cx V) (info : FnInfo V) (args : List V) (e : Expectation V)
    (w : World V) :
    let o := e.ret_call cx info args w
    o.2.1 = { e with ret := o.2.1.ret } ∧ o.2.2 = { w with runs := o.2.2.runs } := by
  unfold Expectation.ret_call
  simp only
  repeat' split
  all_goals first | exact ⟨rfl, rfl⟩ | simp_all

/-- `Expectation.call` as a composition. -/
theorem Expectation.call_cases (cx : Cx V) (info : FnInfo V) (args : List V) (e : Expectation V)
    (w : World V) :
    let c := e.common.call info.funcname (callDesc cx info args) w.seqs
    (∃ p, c.1 = .error p ∧ e.call cx info args w =
      (.error p, { e with common := c.2.1 },
        { w with seqs := c.2.2, log := w.log ++ [⟨e.gid, cx.tid, args, false, cx.upd⟩] })) ∨
    (c.1 = .ok () ∧ e.call cx info args w =
      Expectation.ret_call cx info args { e with common := c.2.1 }
        { w with seqs := c.2.2, log := w.log ++ [⟨e.gid, cx.tid, args, true, cx.upd⟩] }) := by
  unfold Expectation.call
  simp only
  rcases e.common.call info.funcname (callDesc cx info args) w.seqs with ⟨r, c, s⟩
  cases r with
  | error p => exact .inl ⟨p, rfl, rfl⟩
  | ok u => exact .inr ⟨rfl, rfl⟩

/-- The expectation after a call: one more call counted, and possibly another return function;
nothing else. -/
theorem Expectation.call_frame (cx : Cx V) (info : FnInfo V) (args : List V) (e : Expectation V)
    (w : World V) :
    let o := e.call cx info args w
    o.2.1 = { e with
      common := { e.common with times := { e.common.times with count := atomicInc e.common.times.count } }
      ret := o.2.1.ret } := by
  intro o
  have hc := Common.call_eq info.funcname (callDesc cx info args) e.common w.seqs
  rcases Expectation.call_cases cx info args e w with ⟨p, _, h⟩ | ⟨_, h⟩
  · show (e.call cx info args w).2.1 = _
    simp only [o, h, hc]
  · have := (Expectation.ret_call_frame cx info args
      { e with common := (e.common.call info.funcname (callDesc cx info args) w.seqs).2.1 }
      { w with seqs := (e.common.call info.funcname (callDesc cx info args) w.seqs).2.2
               log := w.log ++ [⟨e.gid, cx.tid, args, true, cx.upd⟩] }).1
    rw [← h, hc] at this
    exact this

/-- The shared state after a call: exactly one log entry, for this expectation. -/
theorem Expectation.call_world (cx : Cx V) (info : FnInfo V) (args : List V) (e : Expectation V)
    (w : World V) :
    let o := e.call cx info args w
    let c := e.common.call info.funcname (callDesc cx info args) w.seqs
    ∃ b : Bool, (b = true ↔ c.1 = .ok ()) ∧ o.2.2 = { w with
      seqs := c.2.2
      log := w.log ++ [⟨e.gid, cx.tid, args, b, cx.upd⟩]
      runs := o.2.2.runs } := by
  intro o c
  rcases Expectation.call_cases cx info args e w with ⟨p, hp, h⟩ | ⟨hp, h⟩
  · refine ⟨false, by simp [c, hp], ?_⟩
    show (e.call cx info args w).2.2 = _
    simp only [o, h, c]
  · refine ⟨true, by simp [c, hp], ?_⟩
    have := (Expectation.ret_call_frame cx info args
      { e with common := (e.common.call info.funcname (callDesc cx info args) w.seqs).2.1 }
      { w with seqs := (e.common.call info.funcname (callDesc cx info args) w.seqs).2.2
               log := w.log ++ [⟨e.gid, cx.tid, args, true, cx.upd⟩] }).2
    rw [← h] at this
    exact this

/-- A panicking predicate poisons its own matcher and changes nothing else. -/
theorem Expectation.matches_err {tid : Nat} {args : List V} {e e' : Expectation V} {p : Panic}
    (h : e.matches tid args = (.error p, e')) : e' = { e with common := { e.common with mpoison := true } } := by
  unfold Expectation.matches Common.matches at h
  simp only at h
  split at h
  · rename_i hp
    simp at h
    rw [← h.2, ← hp]
  · split at h <;> simp at h
    exact h.2.symm

/-- The frame conditions of the builders: none touches identity or counter. -/
theorem Expectation.build_frame (b : Build V) (e : Expectation V) (q : Seqs) :
    let o := e.build b q
    o.2.1.gid = e.gid ∧ o.2.1.chain = e.chain ∧ o.2.1.common.mpoison = e.common.mpoison ∧
      o.2.1.common.times.count = e.common.times.count := by
  cases b <;> simp only [Expectation.build, Expectation.setMatcher, Expectation.setStatic,
      Times.times, Times.never, Common.inSequence] <;> (repeat' split) <;> simp_all

theorem Expectation.builds_frame (bs : List (Build V)) (e : Expectation V) (q : Seqs) :
    let o := e.builds bs q
    o.2.1.gid = e.gid ∧ o.2.1.common.mpoison = e.common.mpoison ∧
      o.2.1.common.times.count = e.common.times.count := by
  induction bs generalizing e q with
  | nil => exact ⟨rfl, rfl, rfl⟩
  | cons b bs ih =>
    unfold Expectation.builds
    have hf := Expectation.build_frame b e q
    rcases hb : e.build b q with ⟨r, e1, q1⟩
    rw [hb] at hf
    cases r with
    | error p => exact ⟨hf.1, hf.2.2.1, hf.2.2.2⟩
    | ok u =>
      have := ih { e1 with chain := e.chain ++ [b] } q1
      simp only at this hf ⊢
      exact ⟨this.1.trans hf.1, this.2.1.trans hf.2.2.1, this.2.2.trans hf.2.2.2⟩

end Mockall
