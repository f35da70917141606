import Verif.Lemmas.ConcMore
import Verif.Conc.Nested

/-! # Invariants of executions with nested calls -/

set_option linter.unusedSimpArgs false

namespace Mockall

variable {V : Type}

/-! ## Replacing user code and putting it back -/

theorem StaticRfunc.restored_scripted (r : Except Panic V) (f : StaticRfunc V) :
    f.restored (f.scripted r) = f := by
  cases f <;> rfl

theorem Ret.restored_scripted (r : Except Panic V) (f : Ret V) : f.restored (f.scripted r) = f := by
  cases f <;> simp [Ret.restored, Ret.scripted, StaticRfunc.restored_scripted]

theorem Cell.restored_scripted (ans : Answer V) (c : Cell V) : c.restored (c.scripted ans) = c := by
  simp only [Cell.restored, Cell.scripted, Ret.restored_scripted]

theorem Mem.restored_scripted (ans : Answer V) (m : Mem V) : m.restored (m.scripted ans) = m := by
  simp only [Mem.restored, Mem.scripted, Cell.restored_scripted]

theorem Matcher.scripted_display (r : Except Panic Bool) (x : Matcher V) :
    (x.scripted r).display = x.display := by
  cases x <;> simp [Matcher.scripted, Matcher.display, Function.comp_def]

/-! ## Induction -/

/-- Reasoning about all schedules whose steps are as `G` says. -/
theorem CState.nrun_induct_of {env : CEnv V} {P : CState V → Prop} {G : Nat → Answer V → Prop}
    {s : CState V} (h0 : P s)
    (hstart : ∀ (t : CState V) meth tid args, P t → t.mayCall tid = true →
      P { t with acts := t.acts ++ [Act.start env meth tid args] })
    (hstep : ∀ (t : CState V) id ans act act' m', P t → G id ans → t.acts[id]? = some act →
      t.innermost id act.tid = true → Act.Step env id act (t.mem.scripted ans) act' m' →
      P { mem := t.mem.restored m', acts := t.acts.set id act' })
    (sch : List (NSched V)) (hG : ∀ id ans, .step id ans ∈ sch → G id ans) : P (s.nrun env sch) := by
  induction sch generalizing s with
  | nil => exact h0
  | cons x xs ih =>
    refine ih (s := s.nstep env x) ?_ (fun id ans h => hG id ans (List.mem_cons_of_mem _ h))
    cases x with
    | start meth tid args =>
      unfold CState.nstep
      simp only
      split
      next hc => exact hstart s meth tid args h0 hc
      · exact h0
    | step id ans =>
      unfold CState.nstep
      simp only
      split
      · exact h0
      next act hact =>
        split
        next hin =>
          split
          · exact h0
          next r hr =>
            exact hstep s id ans act r.1 r.2 h0 (hG id ans (List.mem_cons_self ..)) hact hin
              (Act.step_rel hr)
        · exact h0

/-- Reasoning about all schedules. -/
theorem CState.nrun_induct {env : CEnv V} {P : CState V → Prop} {s : CState V} (h0 : P s)
    (hstart : ∀ (t : CState V) meth tid args, P t → t.mayCall tid = true →
      P { t with acts := t.acts ++ [Act.start env meth tid args] })
    (hstep : ∀ (t : CState V) id ans act act' m', P t → t.acts[id]? = some act →
      t.innermost id act.tid = true → Act.Step env id act (t.mem.scripted ans) act' m' →
      P { mem := t.mem.restored m', acts := t.acts.set id act' })
    (sch : List (NSched V)) : P (s.nrun env sch) :=
  CState.nrun_induct_of (G := fun _ _ => True) h0 hstart
    (fun t id ans act act' m' h _ => hstep t id ans act act' m' h) sch (fun _ _ _ => trivial)

/-! ## The invariant of calls does not depend on user code -/

theorem Locks.congr {s t : CState V} (h : Locks s) (hacts : t.acts = s.acts)
    (hm : ∀ a, (t.mem.heap a).mheld = (s.mem.heap a).mheld)
    (hr : ∀ a, (t.mem.heap a).rheld = (s.mem.heap a).rheld) : Locks t := by
  constructor
  · intro a c; rw [hm, hacts]; exact h.m a c
  · intro a c; rw [hr, hacts]; exact h.r a c

theorem CInv.scripted {m0 : Mem V} {s : CState V} (h : CInv m0 s) (ans : Answer V) :
    CInv (m0.scripted ans) { s with mem := s.mem.scripted ans } := by
  refine ⟨?_, h.coh, h.locks.congr rfl (fun _ => rfl) (fun _ => rfl), h.count, h.passed⟩
  intro a
  have := h.same a
  refine ⟨?_, this.range, this.handle⟩
  simp only [Mem.scripted, Cell.scripted]
  rw [this.matcher]

theorem CInv.restored {m0 : Mem V} {s : CState V} {ans : Answer V} {m : Mem V}
    (h : CInv (m0.scripted ans) s) (hm : ∀ a, (m.heap a).Same (m0.heap a)) :
    CInv m0 { s with mem := m.restored s.mem } := by
  refine ⟨?_, h.coh, h.locks.congr rfl (fun _ => rfl) (fun _ => rfl), h.count, h.passed⟩
  intro a
  have := h.same a
  exact ⟨(hm a).matcher, this.range, this.handle⟩

theorem CInv.nested {env : CEnv V} {m0 : Mem V} {s : CState V} (h : CInv m0 s) {id : Nat}
    {ans : Answer V} {act act' : Act V} {m' : Mem V} (hact : s.acts[id]? = some act)
    (hs : Act.Step env id act (s.mem.scripted ans) act' m') :
    CInv m0 { mem := s.mem.restored m', acts := s.acts.set id act' } :=
  ((h.scripted ans).step (s := { s with mem := s.mem.scripted ans }) hact hs).restored h.same

theorem ninv_run (env : CEnv V) {m0 : Mem V} (h : m0.Quiet) (sch : List (NSched V)) :
    CInv m0 (CState.nrun env sch ⟨m0, []⟩) :=
  CState.nrun_induct (CInv.init h) (fun _ meth tid args hi _ => hi.start meth tid args)
    (fun _ _ _ _ _ _ hi hact _ hs => hi.nested hact hs) sch

/-! ## The stack of a thread -/

theorem CState.innermost_iff {s : CState V} {id tid : Nat} : s.innermost id tid = true ↔
    ∀ (j : Nat) (x : Act V), s.acts[j]? = some x → id < j → x.finished = true ∨ x.tid ≠ tid := by
  unfold CState.innermost
  rw [List.all_eq_true]
  constructor
  · intro h j x hx hj
    have := h x (by
      rw [List.mem_iff_getElem?]
      exact ⟨j - (id + 1), by rw [List.getElem?_drop, ← hx]; congr 1; omega⟩)
    simpa using this
  · intro h x hx
    obtain ⟨k, hk⟩ := List.getElem?_of_mem hx
    rw [List.getElem?_drop] at hk
    simpa using h _ x hk (by omega)

theorem CState.mayCall_iff {s : CState V} {tid : Nat} : s.mayCall tid = true ↔
    ∀ x ∈ s.acts, x.finished = true ∨ x.tid ≠ tid ∨ ∃ a, x.user s.mem = some a := by
  unfold CState.mayCall
  rw [List.all_eq_true]
  constructor
  · intro h x hx
    have := h x hx
    simp only [Bool.or_eq_true, bne_iff_ne, ne_eq, Option.isSome_iff_exists] at this
    rcases this with (h | h) | h
    · exact .inl h
    · exact .inr (.inl h)
    · exact .inr (.inr h)
  · intro h x hx
    simp only [Bool.or_eq_true, bne_iff_ne, ne_eq, Option.isSome_iff_exists]
    rcases h x hx with h | h | h
    · exact .inl (.inl h)
    · exact .inl (.inr h)
    · exact .inr h

/-- A call in user code holds the lock of that code. -/
theorem Act.user_holds {m : Mem V} {act : Act V} {a : Nat} (h : act.user m = some a) :
    (∃ rest, act.pc = .matching a rest) ∨ act.pc = .run a := by
  unfold Act.user at h
  split at h
  next b rest hpc =>
    split at h
    · cases h; exact .inl ⟨rest, hpc⟩
    · cases h
  next b hpc =>
    repeat' split at h
    all_goals first
      | (cases h; done)
      | (cases h; exact .inr hpc)
  · cases h

/-- Whether a call is in user code depends only on the configured code that its lock protects. -/
theorem Act.user_congr {m m' : Mem V} {act : Act V}
    (hm : ∀ a rest, act.pc = .matching a rest →
      (m'.heap a).exp.common.matcher = (m.heap a).exp.common.matcher)
    (hr : ∀ a, act.pc = .run a → (m'.heap a).exp.ret = (m.heap a).exp.ret) :
    act.user m' = act.user m := by
  unfold Act.user
  split
  next a rest hpc => rw [hm a rest hpc]
  next a hpc => rw [hr a hpc]
  · rfl

end Mockall
