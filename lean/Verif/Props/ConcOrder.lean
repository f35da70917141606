import Verif.Props.ConcProgress
import Verif.Lemmas.ConcDemo

/-! # Exhausted expectations and sequences under concurrency (C37, C39) -/

set_option linter.unusedSimpArgs false

namespace Mockall

variable {V : Type}

/-! ## C37 -/

/-- Threads are told apart by number; thread `tid` has no call in progress. -/
def CState.threadFree (s : CState V) (tid : Nat) : Prop :=
  ∀ act ∈ s.acts, act.finished = true ∨ act.tid ≠ tid

/-- Where a call of `mt` can be that is going to be answered by `b`, after all of `ahead` have been
passed over. -/
def Act.Heading (m0 : Mem V) (mt tid : Nat) (args : List V) (ahead behind : List Nat) (b : Nat)
    (act : Act V) : Prop :=
  act.meth = mt ∧ act.tid = tid ∧ act.args = args ∧
    ((∃ l, (∀ x ∈ l, x ∈ ahead) ∧ act.pc = .scan (l ++ b :: behind)) ∨
     (∃ x l, x ∈ ahead ∧ (∀ x ∈ l, x ∈ ahead) ∧ act.pc = .matching x (l ++ b :: behind)) ∨
     (∃ x l, x ∈ ahead ∧ (∀ x ∈ l, x ∈ ahead) ∧ act.pc = .check x (l ++ b :: behind) ∧
       (m0.heap x).exp.common.matcher.matches tid args = .ok true) ∨
     act.pc = .matching b behind ∨ act.pc = .check b behind ∨ act.pc = .inc b ∨
     (act.via = some b ∧ act.passed = true))

theorem Act.Heading.step {env : CEnv V} {m0 m m' : Mem V} {mt tid b i : Nat} {args : List V}
    {ahead behind : List Nat} (hvec : env.vec mt = ahead ++ b :: behind)
    (hlen : (env.vec mt).length ≠ 1)
    (hb : (m0.heap b).exp.common.matcher.matches tid args = .ok true)
    (hahead : ∀ x ∈ ahead, ∃ r, (m0.heap x).exp.common.matcher.matches tid args = .ok r)
    {act act' : Act V} (h : act.Heading m0 mt tid args ahead behind b)
    (hcoh : act.Coh) (hsame : ∀ x, (m.heap x).Same (m0.heap x))
    (hpois : ∀ x ∈ env.vec mt, (m.heap x).exp.common.mpoison = false)
    (hdone : ∀ x ∈ ahead, (∃ l, act.pc = .check x l) →
      (m0.heap x).exp.common.matcher.matches tid args = .ok true →
      (m.heap x).exp.isDone = .ok true)
    (hroom : act.pc = .check b behind → (m.heap b).exp.isDone = .ok false)
    (hcall : act.pc = .inc b → (m.heap b).exp.common.times.call.1 = .ok (.ok ()))
    (hs : Act.Step env i act m act' m') : act'.Heading m0 mt tid args ahead behind b := by
  obtain ⟨g1, g2, g3, g4⟩ := h
  refine ⟨by rw [hs.ident.1, g1], by rw [hs.ident.2.1, g2], by rw [hs.ident.2.2, g3], ?_⟩
  have hahead_vec : ∀ x ∈ ahead, x ∈ env.vec mt := by intro x hx; rw [hvec]; simp [hx]
  have hb_vec : b ∈ env.vec mt := by rw [hvec]; simp
  rcases g4 with ⟨l, hl, hpc⟩ | ⟨x, l, hx, hl, hpc⟩ | ⟨x, l, hx, hl, hpc, hmt⟩ | hpc | hpc | hpc | hpc
  · -- scanning
    cases l with
    | nil =>
      rcases hs.of_scan hpc with ⟨h, _⟩ | ⟨_, h⟩
      · rw [hpois b hb_vec] at h; cases h
      · right; right; right; left; rw [h]; rfl
    | cons z l =>
      have hz := hl z (by simp)
      have hl' : ∀ x ∈ l, x ∈ ahead := fun x hx => hl x (by simp [hx])
      have hpz := hpois z (hahead_vec z hz)
      rcases hs.of_scan hpc with ⟨h, _⟩ | ⟨_, h⟩
      · rw [hpz] at h; cases h
      · right; left; exact ⟨z, l, hz, hl', by rw [h]; rfl⟩
  · -- evaluating the matcher of one ahead
    have hsm := (hsame x).matcher
    rcases hs.of_matching hpc with ⟨p, hm, _⟩ | ⟨_, h⟩ | ⟨hm, h⟩
    · rw [hsm, g2, g3] at hm
      obtain ⟨r, h⟩ := hahead x hx
      rw [h] at hm; cases hm
    · exact .inl ⟨l, hl, by rw [h]; rfl⟩
    · rw [hsm, g2, g3] at hm
      exact .inr (.inr (.inl ⟨x, l, hx, hl, by rw [h]; rfl, hm⟩))
  · -- one ahead matched, but it is exhausted
    have hd := hdone x hx ⟨_, hpc⟩ hmt
    rcases hs.of_check hpc with ⟨p, hd'⟩ | ⟨_, h⟩ | ⟨hn, _⟩
    · rw [hd] at hd'; cases hd'
    · exact .inl ⟨l, hl, by rw [h]; rfl⟩
    · rcases hn with hn | hn
      · rw [hd] at hn; cases hn
      · rw [g1] at hn; exact absurd hn hlen
  · -- evaluating the matcher of `b`
    have hsm := (hsame b).matcher
    rcases hs.of_matching hpc with ⟨p, hm, _⟩ | ⟨hm, h⟩ | ⟨hm, h⟩
    · rw [hsm, g2, g3, hb] at hm; cases hm
    · rw [hsm, g2, g3, hb] at hm; cases hm
    · exact .inr (.inr (.inr (.inr (.inl (by rw [h]; rfl)))))
  · -- `b` matched and has room
    have hd := hroom hpc
    rcases hs.of_check hpc with ⟨p, hd'⟩ | ⟨hd', h⟩ | ⟨hn, h⟩
    · rw [hd] at hd'; cases hd'
    · rw [hd] at hd'; cases hd'
    · exact .inr (.inr (.inr (.inr (.inr (.inl (by rw [h]))))))
  · -- counting
    have hok := hcall hpc
    simp only [Act.Coh, hpc] at hcoh
    right; right; right; right; right; right
    rcases hs.of_inc hpc with ⟨_, ⟨p, h, _⟩ | ⟨e, h, _⟩ | ⟨_, h⟩⟩
    · rw [hok] at h; cases h
    · rw [hok] at h; cases h
    · rw [h]; exact ⟨hcoh.1, rfl⟩
  · -- dispatched
    right; right; right; right; right; right
    have hk := hs.keep hcoh hpc.2
    exact ⟨by rw [hk.2]; exact hpc.1, hk.1⟩

/-- C37, provable part.  Let a call start when every expectation ahead of `b` either does not match
its arguments or is already exhausted.  If `b` matches and cannot run out, then in every interleaving
the call goes to `b`: when it is over, it was dispatched to `b` and passed its count check.  (No
matcher panics.)

Missing from the full claim: calls that started before the expectations ahead were exhausted; for those
it is false, see `C37_refuted`. -/
theorem C37_partial (env : CEnv V) (m0 : Mem V) (hq : m0.Quiet) (pre post : List (Sched V))
    (mt tid : Nat) (args : List V) (ahead behind : List Nat) (b : Nat)
    (hvec : env.vec mt = ahead ++ b :: behind) (hne : ahead ≠ [])
    (hfree : (after env m0 pre).threadFree tid)
    (hahead : ∀ x ∈ ahead,
      (m0.heap x).exp.common.matcher.matches tid args = .ok false ∨
      ((m0.heap x).exp.common.matcher.matches tid args = .ok true ∧
        0 < (m0.heap x).exp.common.times.range.end_ ∧
        (m0.heap x).exp.common.times.range.end_ ≤ ((after env m0 pre).mem.heap x).count + 1))
    (hb : (m0.heap b).exp.common.matcher.matches tid args = .ok true)
    (hroom : (m0.heap b).count + (after env m0 (pre ++ .start mt tid args :: post)).acts.length <
      (m0.heap b).exp.common.times.range.end_)
    (hpois : ∀ x ∈ env.vec mt, (m0.heap x).exp.common.mpoison = false)
    (hcalm : ∀ x ∈ env.vec mt, ∀ act ∈ (after env m0 (pre ++ .start mt tid args :: post)).acts,
      ∃ r, (m0.heap x).exp.common.matcher.matches act.tid act.args = .ok r)
    (hfit : ∀ x ∈ env.vec mt,
      (m0.heap x).count + (after env m0 (pre ++ .start mt tid args :: post)).acts.length ≤ usizeMax)
    (act : Act V)
    (hact : (after env m0 (pre ++ .start mt tid args :: post)).acts[(after env m0 pre).acts.length]?
      = some act) (hfin : act.finished = true) :
    act.via = some b ∧ act.passed = true := by
  -- where the call can be
  let Good : Act V → Prop := Act.Heading m0 mt tid args ahead behind b
  let id := (after env m0 pre).acts.length
  let Q : CState V → Prop := fun s =>
    id < s.acts.length ∧
    (∀ x ∈ ahead, ((after env m0 pre).mem.heap x).count ≤ (s.mem.heap x).count) ∧
    (∀ x ∈ env.vec mt, (s.mem.heap x).exp.common.mpoison = false) ∧
    ∀ y, s.acts[id]? = some y → Good y
  let P : CState V → Prop := fun s => CInv m0 s ∧
    ((∀ x ∈ env.vec mt, ∀ act ∈ s.acts,
        ∃ r, (m0.heap x).exp.common.matcher.matches act.tid act.args = .ok r) →
      (∀ x ∈ env.vec mt, (m0.heap x).count + s.acts.length ≤ usizeMax) →
      (m0.heap b).count + s.acts.length < (m0.heap b).exp.common.times.range.end_ → Q s)
  -- nothing is poisoned at the start of the call
  have hpois0 : ∀ (sch : List (Sched V)), (∀ x ∈ env.vec mt, ∀ act ∈ (after env m0 sch).acts,
        ∃ r, (m0.heap x).exp.common.matcher.matches act.tid act.args = .ok r) →
      ∀ x ∈ env.vec mt, ((after env m0 sch).mem.heap x).exp.common.mpoison = false := by
    intro sch
    let R : CState V → Prop := fun s => CInv m0 s ∧ ((∀ x ∈ env.vec mt, ∀ act ∈ s.acts,
        ∃ r, (m0.heap x).exp.common.matcher.matches act.tid act.args = .ok r) →
      ∀ x ∈ env.vec mt, (s.mem.heap x).exp.common.mpoison = false)
    suffices R (after env m0 sch) from this.2
    refine CState.run_induct (P := R) ⟨CInv.init hq, fun _ => hpois⟩ ?_ ?_ sch
    · intro s meth tid args ⟨hi, ih⟩ _
      exact ⟨hi.start meth tid args, fun h => ih (fun x hx act hact => h x hx act (by simp [hact]))⟩
    · intro s i act act' m' ⟨hi, ih⟩ hact hs
      refine ⟨hi.step hact hs, fun h x hx => ?_⟩
      have hmem : ∀ y ∈ s.acts, ∃ z ∈ s.acts.set i act', z.tid = y.tid ∧ z.args = y.args := by
        intro y hy
        obtain ⟨c, hc⟩ := List.getElem?_of_mem hy
        by_cases hci : c = i
        · subst hci
          rw [hact] at hc; cases hc
          exact ⟨act', List.mem_of_getElem? (i := c) (by simp [acts_set hact]), hs.ident.2⟩
        · exact ⟨y, List.mem_of_getElem? (i := c) (by simp [acts_set hact, hci, hc]), rfl, rfl⟩
      have hold : ∀ x ∈ env.vec mt, ∀ act ∈ s.acts,
          ∃ r, (m0.heap x).exp.common.matcher.matches act.tid act.args = .ok r := by
        intro x hx y hy
        obtain ⟨z, hz, h1, h2⟩ := hmem y hy
        rw [← h1, ← h2]; exact h x hx z hz
      rcases hs.mpoison x with h1 | ⟨rest, p, hpc, hp⟩
      · simp only; rw [h1]; exact ih hold x hx
      · obtain ⟨r, hr⟩ := hold x hx act (List.mem_of_getElem? hact)
        rw [(hi.same x).matcher, hr] at hp
        cases hp
  have hrun : after env m0 (pre ++ .start mt tid args :: post) =
      CState.run env post ⟨(after env m0 pre).mem,
        (after env m0 pre).acts ++ [Act.start env mt tid args]⟩ := by
    rw [after_append]
    have : (after env m0 pre).step env (.start mt tid args) = ⟨(after env m0 pre).mem,
        (after env m0 pre).acts ++ [Act.start env mt tid args]⟩ := by
      unfold CState.step
      simp only
      rw [if_pos]
      rw [List.all_eq_true]
      intro x hx
      have := hfree x hx
      simpa using this
    simp only [CState.run, List.foldl_cons, this]
  have hlenlen : env.vec mt ≠ [] ∧ (env.vec mt).length ≠ 1 := by
    rw [hvec]
    refine ⟨by simp, ?_⟩
    cases ahead with
    | nil => exact absurd rfl hne
    | cons x l => simp
  suffices hP : P (after env m0 (pre ++ .start mt tid args :: post)) by
    obtain ⟨_, _, _, hgood⟩ := hP.2 hcalm hfit hroom
    obtain ⟨_, _, _, h⟩ := hgood act hact
    rcases h with ⟨_, _, h⟩ | ⟨_, _, _, _, h⟩ | ⟨_, _, _, _, h, _⟩ | h | h | h | h
    · simp [Act.finished, h] at hfin
    · simp [Act.finished, h] at hfin
    · simp [Act.finished, h] at hfin
    · simp [Act.finished, h] at hfin
    · simp [Act.finished, h] at hfin
    · simp [Act.finished, h] at hfin
    · exact h
  rw [hrun]
  refine CState.run_induct (P := P) ?_ ?_ ?_ post
  · have hi : CInv m0 (after env m0 pre) := cinv_run env hq pre
    refine ⟨hi.start mt tid args, fun h _ _ => ⟨by simp [id], fun x _ => Nat.le_refl _, ?_, ?_⟩⟩
    · exact hpois0 pre (fun x hx act hact => h x hx act (by simp [hact]))
    · intro y hy
      simp only [acts_push, id, if_true] at hy
      cases hy
      exact ⟨rfl, rfl, rfl, .inl ⟨ahead, fun _ h => h, by simp [Act.start, hvec]⟩⟩
  · intro s meth tid' args' ⟨hi, ih⟩ _
    refine ⟨hi.start meth tid' args', fun h1 h2 h3 => ?_⟩
    simp only [List.length_append, List.length_cons, List.length_nil] at h2 h3
    obtain ⟨q1, q2, q3, q4⟩ := ih (fun x hx act hact => h1 x hx act (by simp [hact]))
      (fun x hx => by have := h2 x hx; omega) (by omega)
    refine ⟨by simp; omega, q2, q3, ?_⟩
    intro y hy
    simp only [acts_push] at hy
    rw [if_neg (by omega)] at hy
    exact q4 y hy
  · intro s i act act' m' ⟨hi, ih⟩ hact hs
    refine ⟨hi.step hact hs, fun h1 h2 h3 => ?_⟩
    simp only [List.length_set] at h2 h3
    have hold : ∀ x ∈ env.vec mt, ∀ act ∈ s.acts,
        ∃ r, (m0.heap x).exp.common.matcher.matches act.tid act.args = .ok r := by
      intro x hx y hy
      obtain ⟨c, hc⟩ := List.getElem?_of_mem hy
      by_cases hci : c = i
      · subst hci
        rw [hact] at hc; cases hc
        have := h1 x hx act' (List.mem_of_getElem? (i := c) (by simp [acts_set hact]))
        rwa [hs.ident.2.1, hs.ident.2.2] at this
      · exact h1 x hx y (List.mem_of_getElem? (i := c) (by simp [acts_set hact, hci, hc]))
    obtain ⟨q1, q2, q3, q4⟩ := ih hold h2 h3
    have hlti : i < s.acts.length := by
      rcases Nat.lt_or_ge i s.acts.length with h' | h'
      · exact h'
      · rw [List.getElem?_eq_none h'] at hact; cases hact
    -- counts do not wrap
    have hcnt : ∀ x, (m0.heap x).count + s.acts.length ≤ usizeMax →
        (s.mem.heap x).count ≤ (m'.heap x).count ∧
        (s.mem.heap x).count = (m0.heap x).count + s.acts.countP (Act.counted x) ∧
        (act.counted x = false → s.acts.countP (Act.counted x) < s.acts.length) := by
      intro x hx
      have hle := List.countP_le_length (p := Act.counted x) (l := s.acts)
      have h4 := hi.count x
      rw [Nat.mod_eq_of_lt (by omega)] at h4
      have hlt : act.counted x = false → s.acts.countP (Act.counted x) < s.acts.length := by
        intro h6
        have := countP_set (Act.counted x) s.acts i act
          ({ act with via := some x, pc := .done (.error .poisoned) } : Act V) hact
        have h5 := List.countP_le_length (p := Act.counted x) (l := s.acts.set i
            ({ act with via := some x, pc := .done (.error .poisoned) } : Act V))
        have h7 : ({ act with via := some x, pc := .done (.error .poisoned) } :
          Act V).counted x = true := by simp [Act.counted]
        rw [h6, h7] at this
        simp only [Bool.false_eq_true, if_false, if_true] at this
        simp only [List.length_set] at h5
        omega
      refine ⟨?_, h4, hlt⟩
      rcases hs.count (hi.coh i act hact) x with ⟨e, _⟩ | ⟨e, hpc, _⟩
      · omega
      · have := hlt (by simp [Act.counted, hpc])
        rw [e]
        unfold atomicInc
        rw [if_neg (by omega)]
        omega
    refine ⟨by simpa using q1, ?_, ?_, ?_⟩
    · intro x hx
      have := hcnt x (h2 x (by rw [hvec]; simp [hx]))
      exact Nat.le_trans (q2 x hx) this.1
    · intro x hx
      rcases hs.mpoison x with h | ⟨rest, p, hpc, hp⟩
      · simp only; rw [h]; exact q3 x hx
      · obtain ⟨r, hr⟩ := hold x hx act (List.mem_of_getElem? hact)
        rw [(hi.same x).matcher, hr] at hp
        cases hp
    · intro y hy
      simp only [acts_set hact] at hy
      split at hy
      next hid =>
        cases hy
        have hb_vec : b ∈ env.vec mt := by rw [hvec]; simp
        have hdone : ∀ x ∈ ahead, (m0.heap x).exp.common.matcher.matches tid args = .ok true →
            (s.mem.heap x).exp.isDone = .ok true := by
          intro x hx hm
          rcases hahead x hx with h | ⟨_, h5, h6⟩
          · rw [hm] at h; cases h
          · have h7 := q2 x hx
            simp only [Expectation.isDone, Common.isDone, Times.isDone, (hi.same x).range, subOne]
            rw [if_neg (by omega)]
            simp only [Except.ok.injEq, decide_eq_true_eq]
            change (s.mem.heap x).count ≥ _
            omega
        refine Act.Heading.step hvec hlenlen.2 hb (fun x hx => (hahead x hx).elim (fun h => ⟨_, h⟩)
          (fun h => ⟨_, h.1⟩)) (q4 act (by rw [hid]; exact hact)) (hi.coh i act hact) hi.same q3
          (fun x hx _ => hdone x hx) (fun hpc => ?_) (fun hpc => ?_) hs
        · -- `b` matched and has room
          have hc := hcnt b (h2 b hb_vec)
          have hle := hc.2.2 (by
            have hcoh := hi.coh i act hact
            simp only [Act.Coh, hpc] at hcoh
            simp [Act.counted, hcoh.1])
          simp only [Expectation.isDone, Common.isDone, Times.isDone, (hi.same b).range, subOne]
          rw [if_neg (by omega)]
          simp only [Except.ok.injEq, decide_eq_false_iff_not]
          change ¬ (s.mem.heap b).count ≥ _
          omega
        · -- counting
          have hc := hcnt b (h2 b hb_vec)
          have hlt := hc.2.2 (by simp [Act.counted, hpc])
          have hfb := h2 b hb_vec
          refine (times_call_ok (t := (s.mem.heap b).exp.common.times) ?_).mpr ?_
          · change (s.mem.heap b).count < _
            omega
          · rw [(hi.same b).range]
            change (s.mem.heap b).count + 1 < _
            omega
      next => exact q4 y hy

/-- `expect_f0().once().return_const(10)` and `expect_f0().return_const(20)`. -/
def spill : List (List (List (Build Nat))) := [[[.once, .returnConst 10], [.returnConst 20]]]

/-- Two threads call `f0()`; both look at the count of the first expectation before either increments
it. -/
def spillRace : List (Sched Nat) :=
  [.start 0 1 [], .start 0 2 []] ++ steps [0, 0, 0, 1, 1, 1, 0, 0, 0, 0, 0, 0, 0, 1, 1]

/-- The full C37 is false: with `once()` ahead of an expectation without limit, both matching
everything, one of two overlapping calls panics instead of being answered by the second expectation. -/
theorem C37_refuted :
    (demoMem spill).Quiet ∧ (demoEnv spill).vec 0 = [0, 1] ∧
    (∀ tid args, ((demoMem spill).heap 0).exp.common.matcher.matches tid args = .ok true) ∧
    (∀ tid args, ((demoMem spill).heap 1).exp.common.matcher.matches tid args = .ok true) ∧
    ((demoMem spill).heap 0).exp.common.times.range = ⟨1, 2⟩ ∧
    ((demoMem spill).heap 1).exp.common.times.range = ⟨0, usizeMax⟩ ∧
    (after (demoEnv spill) (demoMem spill) spillRace).Idle ∧
    (after (demoEnv spill) (demoMem spill) spillRace).outcomes =
      [some (.ok 10), some (.error (.call "f0" "<anything>" (.tooMany 2 1)))] ∧
    ((after (demoEnv spill) (demoMem spill) spillRace).mem.heap 1).count = 0 := by
  refine ⟨demoMem_quiet _ (by decide), rfl, fun _ _ => rfl, fun _ _ => rfl, rfl, rfl, ?_, by rfl,
    by rfl⟩
  unfold CState.Idle
  decide

/-- `C37_partial` at work: a call that starts after the first one took its share. -/
def spillLater : List (Sched Nat) := [.start 0 1 []] ++ steps [0, 0, 0, 0]

example : ((after (demoEnv spill) (demoMem spill) spillLater).mem.heap 0).count = 1 ∧
    (after (demoEnv spill) (demoMem spill) spillLater).threadFree 2 ∧
    (after (demoEnv spill) (demoMem spill) (spillLater ++ .start 0 2 [] ::
      steps (List.replicate 15 [1, 0]).flatten)).outcomes =
      [some (.ok 10), some (.ok 20)] := by
  refine ⟨by rfl, ?_, by rfl⟩
  unfold CState.threadFree
  decide

end Mockall
