import Verif.Props.ConcWeak

/-! # Concurrent calls with relaxed atomics: overflow to later expectations, and examples (C74) -/

set_option linter.unusedSimpArgs false

namespace Mockall

variable {V : Type}

/-- While the phase has made fewer than 2^64 calls the counts are plain numbers, and a call that is not
counted yet leaves room. -/
theorem CInv.plain {m0 : Mem V} {s : CState V} (hi : CInv m0 s) {i : Nat} {act : Act V}
    (hact : s.acts[i]? = some act) {x : Nat} (hx : (m0.heap x).count + s.acts.length ≤ usizeMax) :
    (s.mem.heap x).count = (m0.heap x).count + s.acts.countP (Act.counted x) ∧
    (act.counted x = false → s.acts.countP (Act.counted x) < s.acts.length) := by
  have hle := List.countP_le_length (p := Act.counted x) (l := s.acts)
  have h4 := hi.count x
  rw [Nat.mod_eq_of_lt (by omega)] at h4
  refine ⟨h4, ?_⟩
  intro h6
  have := countP_set (Act.counted x) s.acts i act
    ({ act with via := some x, pc := .done (.error .poisoned) } : Act V) hact
  have h5 := List.countP_le_length (p := Act.counted x) (l := s.acts.set i
      ({ act with via := some x, pc := .done (.error .poisoned) } : Act V))
  have h7 : ({ act with via := some x, pc := .done (.error .poisoned) } :
    Act V).counted x = true := by simp [Act.counted]
  rw [h6, h7] at this
  simp only [Bool.false_eq_true, if_false, if_true] at this
  simp only [List.length_set] at h5
  omega

/-- C74.  Let a call start when every expectation ahead of `b` either does not match its arguments or is
exhausted by calls that happen before it.  If `b` matches and cannot run out, then the call goes to `b`:
when it is over, it was dispatched to `b` and passed its count check.  (No matcher panics.)  Without `Hb`
this is false, see `C74_unsynchronised_overflow`. -/
theorem C74_overflow (env : CEnv V) (m0 : Mem V) (hq : m0.Quiet) (pre post : List (WSched V))
    (mt tid : Nat) (args : List V) (ahead behind : List Nat) (b : Nat)
    (hvec : env.vec mt = ahead ++ b :: behind) (hne : ahead ≠ [])
    (hfree : (wafter env m0 pre).cs.threadFree tid)
    (hahead : ∀ x ∈ ahead,
      (m0.heap x).exp.common.matcher.matches tid args = .ok false ∨
      ((m0.heap x).exp.common.matcher.matches tid args = .ok true ∧
        0 < (m0.heap x).exp.common.times.range.end_ ∧
        ∃ earlier since, pre = earlier ++ since ∧
          (m0.heap x).exp.common.times.range.end_ ≤
            ((wafter env m0 earlier).cs.mem.heap x).count + 1 ∧
          ∀ act ∈ (wafter env m0 earlier).cs.dispatched x, Hb since act.tid tid))
    (hb : (m0.heap b).exp.common.matcher.matches tid args = .ok true)
    (hroom : (m0.heap b).count + (wafter env m0 (pre ++ .start mt tid args :: post)).cs.acts.length <
      (m0.heap b).exp.common.times.range.end_)
    (hpois : ∀ x ∈ env.vec mt, (m0.heap x).exp.common.mpoison = false)
    (hcalm : ∀ x ∈ env.vec mt, ∀ act ∈ (wafter env m0 (pre ++ .start mt tid args :: post)).cs.acts,
      ∃ r, (m0.heap x).exp.common.matcher.matches act.tid act.args = .ok r)
    (hfit : ∀ x ∈ env.vec mt, (m0.heap x).count +
      (wafter env m0 (pre ++ .start mt tid args :: post)).cs.acts.length ≤ usizeMax)
    (act : Act V)
    (hact : (wafter env m0 (pre ++ .start mt tid args :: post)).cs.acts[
      (wafter env m0 pre).cs.acts.length]? = some act) (hfin : act.finished = true) :
    act.via = some b ∧ act.passed = true := by
  let id := (wafter env m0 pre).cs.acts.length
  let Calm : CState V → Prop := fun s => ∀ x ∈ env.vec mt, ∀ act ∈ s.acts,
    ∃ r, (m0.heap x).exp.common.matcher.matches act.tid act.args = .ok r
  let Fit : CState V → Prop := fun s => ∀ x ∈ env.vec mt, (m0.heap x).count + s.acts.length ≤ usizeMax
  -- what the calling thread knows of an expectation ahead
  let Known : WState V → Prop := fun s => ∀ x ∈ ahead,
    (m0.heap x).exp.common.matcher.matches tid args = .ok true →
      (m0.heap x).exp.common.times.range.end_ ≤ (m0.heap x).count + s.view tid (.cnt x) + 1
  have hlen1 : (env.vec mt).length ≠ 1 := by
    rw [hvec]
    cases ahead with
    | nil => exact absurd rfl hne
    | cons x l => simp
  have hmono : ∀ (s : WState V) (sch : List (WSched V)),
      s.cs.acts.length ≤ (s.run env sch).cs.acts.length := by
    intro s sch
    refine WState.run_induct (P := fun r => s.cs.acts.length ≤ r.cs.acts.length) (Nat.le_refl _)
      ?_ ?_ ?_ ?_ sch
    · intro t _ _ _ h _; simp; omega
    · intro t _ _ _ _ h _ _ _; rw [t.moved_cs]; simpa using h
    · intro t _ _ _ _ _ _ h _ _ _ _ _; simpa [WState.learn, WState.move] using h
    · intro t _ _ h; exact h
  have hback : ∀ (acts : List (Act V)) (i : Nat) (x x' : Act V), acts[i]? = some x →
      x'.meth = x.meth ∧ x'.tid = x.tid ∧ x'.args = x.args →
      (∀ z ∈ env.vec mt, ∀ act ∈ acts.set i x',
        ∃ r, (m0.heap z).exp.common.matcher.matches act.tid act.args = .ok r) →
      ∀ z ∈ env.vec mt, ∀ act ∈ acts,
        ∃ r, (m0.heap z).exp.common.matcher.matches act.tid act.args = .ok r := by
    intro acts i x x' hx hid h z hz
    exact acts_set_forall (Q := fun _ ti ar =>
      ∃ r, (m0.heap z).exp.common.matcher.matches ti ar = .ok r) hx hid (h z hz)
  -- nothing is poisoned
  have hpois0 : ∀ (sch : List (WSched V)), Calm (wafter env m0 sch).cs →
      ∀ x ∈ env.vec mt, ((wafter env m0 sch).cs.mem.heap x).exp.common.mpoison = false := by
    intro sch
    let R : WState V → Prop := fun s => CInv m0 s.cs ∧ (Calm s.cs →
      ∀ x ∈ env.vec mt, (s.cs.mem.heap x).exp.common.mpoison = false)
    suffices R (wafter env m0 sch) from this.2
    refine WState.run_induct (P := R) ⟨CInv.init hq, fun _ => hpois⟩ ?_ ?_ ?_ (fun _ _ _ h => h) sch
    · intro s meth tid args ⟨hi, ih⟩ _
      exact ⟨hi.start meth tid args, fun h => ih (fun x hx act hact => h x hx act (by simp [hact]))⟩
    · intro s i act act' m' ⟨hi, ih⟩ hact _ hs
      change CInv m0 _ ∧ (Calm _ → _)
      rw [s.moved_cs]
      refine ⟨hi.step hact hs, fun h x hx => ?_⟩
      have hold := hback s.cs.acts i act act' hact hs.ident h
      rcases hs.mpoison x with h1 | ⟨rest, p, hpc, hp⟩
      · simp only; rw [h1]; exact ih hold x hx
      · obtain ⟨r, hr⟩ := hold x hx act (List.mem_of_getElem? hact)
        rw [(hi.same x).matcher, hr] at hp
        cases hp
    · intro s i act act' l n v ⟨hi, ih⟩ hact hr _ _ hs
      exact ⟨hi.load hact hr hs, fun h => ih (hback s.cs.acts i act act' hact hs.ident h)⟩
  let Q : WState V → Prop := fun s => id < s.cs.acts.length ∧ Known s ∧
    (∀ x ∈ env.vec mt, (s.cs.mem.heap x).exp.common.mpoison = false) ∧
    ∀ y, s.cs.acts[id]? = some y → y.Heading m0 mt tid args ahead behind b
  let P : WState V → Prop := fun s => WInv m0 s ∧ (Calm s.cs → Fit s.cs →
    (m0.heap b).count + s.cs.acts.length < (m0.heap b).exp.common.times.range.end_ → Q s)
  let s1 : WState V := { wafter env m0 pre with cs := { (wafter env m0 pre).cs with
    acts := (wafter env m0 pre).cs.acts ++ [Act.start env mt tid args] } }
  have hrun : wafter env m0 (pre ++ .start mt tid args :: post) = s1.run env post := by
    rw [wafter_append]
    show ((wafter env m0 pre).step env (.start mt tid args)).run env post = s1.run env post
    congr 1
    simp only [WState.step, CState.step, s1]
    rw [if_pos]
    rw [List.all_eq_true]
    intro x hx
    have := hfree x hx
    simpa using this
  suffices hP : P (wafter env m0 (pre ++ .start mt tid args :: post)) by
    obtain ⟨_, _, _, hgood⟩ := hP.2 hcalm hfit hroom
    obtain ⟨_, _, _, h⟩ := hgood act hact
    rcases h with ⟨_, _, h⟩ | ⟨_, _, _, _, h⟩ | ⟨_, _, _, _, h, _⟩ | h | h | h | h
    · simp [Act.finished, h] at hfin
    · simp [Act.finished, h] at hfin
    · simp [Act.finished, h] at hfin
    · simp [Act.finished, h] at hfin
    · simp [Act.finished, h] at hfin
    · simp [Act.finished, h] at hfin
    · exact h
  have hahead' : ∀ x ∈ ahead, ∃ r, (m0.heap x).exp.common.matcher.matches tid args = .ok r :=
    fun x hx => (hahead x hx).elim (fun h => ⟨_, h⟩) (fun h => ⟨_, h.1⟩)
  have hahead_vec : ∀ x ∈ ahead, x ∈ env.vec mt := by intro x hx; rw [hvec]; simp [hx]
  have hb_vec : b ∈ env.vec mt := by rw [hvec]; simp
  have hend : ∀ x ∈ ahead, (m0.heap x).exp.common.matcher.matches tid args = .ok true →
      0 < (m0.heap x).exp.common.times.range.end_ := by
    intro x hx hm
    rcases hahead x hx with h | h
    · rw [hm] at h; cases h
    · exact h.2.1
  rw [hrun]
  refine WState.run_induct (P := P) ?_ ?_ ?_ ?_ ?_ post
  · have hi := winv_run env hq pre
    refine ⟨hi.start mt tid args, fun h hf _ => ⟨by simp [id, s1], ?_, ?_, ?_⟩⟩
    · intro x hx hm
      rcases hahead x hx with h' | ⟨_, _, earlier, since, hpre, hcount, hsync⟩
      · rw [hm] at h'; cases h'
      · have hi1 := winv_run env hq earlier
        have h1 := hi1.sees_latest (env := env) (sch := since) (t := tid) (a := x)
          (fun act hact hv => hsync act (List.mem_filter.mpr ⟨hact, by simp [hv]⟩))
        change ((wafter env m0 earlier).hist (.cnt x)).length ≤
          ((wafter env m0 earlier).run env since).view tid (.cnt x) + 1 at h1
        rw [← wafter_append, ← hpre] at h1
        have h2 := hi1.get_cnt x
        have h3 := Nat.mod_le ((m0.heap x).count +
          (((WState.init m0).run env earlier).hist (.cnt x)).length - 1) (usizeMax + 1)
        have h4 := hi1.bound 0 (.cnt x)
        rw [Nat.add_sub_assoc (by omega)] at h3
        show _ ≤ (m0.heap x).count + (wafter env m0 pre).view tid (.cnt x) + 1
        unfold wafter at h1 hcount ⊢
        omega
    · refine hpois0 pre (fun x hx act hact => h x hx act ?_)
      simp [s1, hact]
    · intro y hy
      simp only [s1, acts_push, id, if_true] at hy
      cases hy
      exact ⟨rfl, rfl, rfl, .inl ⟨ahead, fun _ h => h, by simp [Act.start, hvec]⟩⟩
  · intro s meth tid' args' ⟨hi, ih⟩ _
    refine ⟨hi.start meth tid' args', fun h1 h2 h3 => ?_⟩
    simp only [List.length_append, List.length_cons, List.length_nil] at h3
    obtain ⟨q1, q2, q3, q4⟩ := ih (fun x hx act hact => h1 x hx act (by simp [hact]))
      (fun x hx => by have := h2 x hx; simp at this; omega) (by omega)
    refine ⟨by simp; omega, q2, q3, ?_⟩
    intro y hy
    simp only [acts_push] at hy
    rw [if_neg (by omega)] at hy
    exact q4 y hy
  · intro s i x x' m' ⟨hi, ih⟩ hx hr hs
    refine ⟨hi.moved hx hs, ?_⟩
    have hview : ∀ k, s.view tid k ≤ (s.moved i x x' m').view tid k := by
      intro k
      have := hi.bound tid k
      rw [s.moved_view]
      split <;> omega
    change Calm _ → Fit _ → _ → (id < _ ∧ Known _ ∧ _ ∧ _)
    rw [s.moved_cs]
    intro h1 h2 h3
    simp only [Fit, List.length_set] at h2 h3
    have hold := hback s.cs.acts i x x' hx hs.ident h1
    obtain ⟨q1, q2, q3, q4⟩ := ih hold h2 h3
    refine ⟨by simpa using q1, ?_, ?_, ?_⟩
    · intro z hz hm
      have := q2 z hz hm
      have := hview (.cnt z)
      omega
    · intro z hz
      rcases hs.mpoison z with h | ⟨rest, p, hpc, hp⟩
      · simp only; rw [h]; exact q3 z hz
      · obtain ⟨r, hr⟩ := hold z hz x (List.mem_of_getElem? hx)
        rw [(hi.base.same z).matcher, hr] at hp
        cases hp
    · intro y hy
      simp only [acts_set hx] at hy
      split at hy
      next hid =>
        cases hy
        refine Act.Heading.step hvec hlen1 hb hahead' (q4 x (by rw [hid]; exact hx))
          (hi.base.coh i x hx) hi.base.same q3 ?_ ?_ ?_ hs
        · rintro z _ ⟨l, hpc⟩ _
          simp [hpc, Pc.reads] at hr
        · intro hpc
          simp [hpc, Pc.reads] at hr
        · intro hpc
          have hc := hi.base.plain hx (h2 b hb_vec)
          have hlt := hc.2 (by simp [Act.counted, hpc])
          have hfb := h2 b hb_vec
          refine (times_call_ok (t := (s.cs.mem.heap b).exp.common.times) ?_).mpr ?_
          · change (s.cs.mem.heap b).count < _
            omega
          · rw [(hi.base.same b).range]
            change (s.cs.mem.heap b).count + 1 < _
            omega
      next => exact q4 y hy
  · intro s i x x' l n v ⟨hi, ih⟩ hx hr hv hle hs
    refine ⟨hi.load hx hr hv hle hs, fun h1 h2 h3 => ?_⟩
    simp only [WState.learn, WState.move, Fit, List.length_set] at h1 h2 h3
    have hold := hback s.cs.acts i x x' hx hs.ident h1
    obtain ⟨q1, q2, q3, q4⟩ := ih hold h2 h3
    refine ⟨by simpa [WState.learn, WState.move] using q1, ?_, q3, ?_⟩
    · intro z hz hm
      have := q2 z hz hm
      simp only [WState.learn, WState.move]
      split
      next ht => obtain ⟨t1, t2⟩ := ht; rw [t1, t2] at this; omega
      · exact this
    · intro y hy
      simp only [WState.learn, WState.move, acts_set hx] at hy
      split at hy
      next hid =>
        cases hy
        have hg := q4 x (by rw [hid]; exact hx)
        have hps : ∀ z, ((s.cs.mem.pretend l v).heap z).Same (m0.heap z) :=
          fun z => (s.cs.mem.pretend_cell l v z).1.trans (hi.base.same z)
        have hil : n < (s.hist l).length := by
          rcases Nat.lt_or_ge n (s.hist l).length with h' | h'
          · exact h'
          · rw [List.getElem?_eq_none h'] at hv; cases hv
        -- the count that is read
        have hread : ∀ z, z ∈ env.vec mt → l = .cnt z →
            ((s.cs.mem.pretend l v).heap z).count = (m0.heap z).count + n ∧
            n ≤ s.cs.acts.countP (Act.counted z) := by
          rintro z hz rfl
          have h5 := s.cs.mem.pretend_get (.cnt z) (.cnt z) v
          simp only [Mem.get, if_true] at h5
          have h6 := hi.len z
          have h7 := List.countP_le_length (p := Act.counted z) (l := s.cs.acts)
          have h8 := hi.cnt z n v hv
          have h9 := h2 z hz
          rw [Nat.mod_eq_of_lt (by omega)] at h8
          exact ⟨by rw [h5, h8], by omega⟩
        refine Act.Heading.step hvec hlen1 hb hahead' hg (hi.base.coh i x hx) hps ?_ ?_ ?_ ?_ hs
        · intro z hz
          rw [(s.cs.mem.pretend_cell l v z).2.2.2.2]
          exact q3 z hz
        · rintro z hz ⟨rest, hpc⟩ hm
          have hl : l = .cnt z := by
            simp only [hpc, Pc.reads, Option.some.injEq] at hr
            exact hr.symm
          have h5 := (hread z (hahead_vec z hz) hl).1
          have h6 := q2 z hz hm
          have h7 := hend z hz hm
          subst hl
          rw [hg.2.1] at hle
          simp only [Expectation.isDone, Common.isDone, Times.isDone, (hps z).range, subOne]
          rw [if_neg (by omega)]
          simp only [Except.ok.injEq, decide_eq_true_eq]
          change ((s.cs.mem.pretend (.cnt z) v).heap z).count ≥ _
          omega
        · intro hpc
          have hl : l = .cnt b := by
            simp only [hpc, Pc.reads, Option.some.injEq] at hr
            exact hr.symm
          have h5 := hread b hb_vec hl
          have h6 := (hi.base.plain hx (h2 b hb_vec)).2 (by
            have hcoh := hi.base.coh i x hx
            simp only [Act.Coh, hpc] at hcoh
            simp [Act.counted, hcoh.1])
          simp only [Expectation.isDone, Common.isDone, Times.isDone, (hps b).range, subOne]
          rw [if_neg (by omega)]
          simp only [Except.ok.injEq, decide_eq_false_iff_not]
          change ¬ ((s.cs.mem.pretend l v).heap b).count ≥ _
          omega
        · intro hpc
          simp [hpc, Pc.reads] at hr
      next => exact q4 y hy
  · intro s u v ⟨hi, ih⟩
    refine ⟨hi.synced u v, fun h1 h2 h3 => ?_⟩
    obtain ⟨q1, q2, q3, q4⟩ := ih h1 h2 h3
    refine ⟨q1, ?_, q3, q4⟩
    intro z hz hm
    have := q2 z hz hm
    simp only [WState.synced]
    split
    next ht => rw [ht] at this; omega
    · exact this

/-! ## Without synchronisation -/

/-- Call number `id` of a method whose only expectation is in a sequence, made from start to end; its four
loads see these values. -/
def seqCall (id seenDone seenLevel seenLow seenHigh : Nat) : List (WSched Nat) :=
  [.step id, .step id, .load id seenDone, .step id, .load id seenLevel, .load id seenLow,
   .load id seenHigh, .step id, .step id, .step id]

/-- Thread 1 calls `f0` and returns.  Then thread 2 calls `f1`, but sees the sequence as it was. -/
def staleLevel : List (WSched Nat) :=
  .start 0 1 [] :: seqCall 0 0 0 1 1 ++ .start 1 2 [] :: seqCall 1 0 0 1 1

/-- `C74_accept` needs the synchronisation: the calls are made in the right order, one after the other has
returned, and yet the second panics, because the level of the sequence is loaded with `Relaxed` and the
thread may see an old one. -/
theorem C74_unsynchronised_sequence :
    (demoMem single).Quiet ∧ (demoMem single).Fresh1 0 ∧
    (wafter (demoEnv single) (demoMem single) (.start 0 1 [] :: seqCall 0 0 0 1 1)).cs.outcomes =
      [some (.ok 10)] ∧
    (wafter (demoEnv single) (demoMem single) staleLevel).cs.outcomes =
      [some (.ok 10), some (.error (.seqViolation "MockFoo::f1()"))] :=
  ⟨single_fresh.1, single_fresh.2, by rfl, by rfl⟩

/-- With a `sync` (joining thread 1, for example) the old level cannot be seen any more: scheduling that
load does nothing, and with the only load that is possible the call returns. -/
theorem single_synchronised :
    (wafter (demoEnv single) (demoMem single)
      (.start 0 1 [] :: seqCall 0 0 0 1 1 ++ .sync 1 2 :: .start 1 2 [] :: seqCall 1 0 0 1 1)).cs.outcomes =
      [some (.ok 10), none] ∧
    (wafter (demoEnv single) (demoMem single)
      (.start 0 1 [] :: seqCall 0 0 0 1 1 ++ .sync 1 2 :: .start 1 2 [] :: seqCall 1 0 1 1 1)).cs.outcomes =
      [some (.ok 10), some (.ok 20)] := ⟨by rfl, by rfl⟩

/-- Thread 1 calls `f0` and returns.  Then thread 2 calls `f0`, but sees the old count of the first
expectation. -/
def staleCount : List (WSched Nat) :=
  .start 0 1 [] :: [.step 0, .step 0, .load 0 0, .step 0, .step 0, .load 0 1, .load 0 1, .step 0, .step 0,
    .step 0] ++
  .start 0 2 [] :: [.step 1, .step 1, .load 1 0, .step 1, .step 1]

/-- `C74_overflow` needs the synchronisation: the second call is made after the first has returned, and yet
it panics instead of being answered by the expectation behind. -/
theorem C74_unsynchronised_overflow :
    (demoMem spill).Quiet ∧ (demoEnv spill).vec 0 = [0, 1] ∧
    (wafter (demoEnv spill) (demoMem spill) (staleCount.take 11)).cs.outcomes = [some (.ok 10)] ∧
    (wafter (demoEnv spill) (demoMem spill) staleCount).cs.outcomes =
      [some (.ok 10), some (.error (.call "f0" "<anything>" (.tooMany 2 1)))] :=
  ⟨demoMem_quiet _ (by decide), rfl, by rfl, by rfl⟩

/-! ## The theorems apply -/

section Examples

/-- The first call of `staleCount`. -/
def first : List (WSched Nat) := staleCount.take 11

/-- What is left to do of a call that spills over to the second expectation. -/
def second : List (WSched Nat) :=
  [.step 1, .step 1, .load 1 1, .step 1, .step 1, .load 1 0, .step 1, .step 1, .load 1 1, .load 1 1,
    .step 1, .step 1, .step 1]

/-- `C74_overflow` at work, with all its hypotheses: thread 2 calls after joining thread 1. -/
example (act : Act Nat)
    (hact : (wafter (demoEnv spill) (demoMem spill)
      ((first ++ [.sync 1 2]) ++ .start 0 2 [] :: second)).cs.acts[1]? = some act)
    (hfin : act.finished = true) : act.via = some 1 ∧ act.passed = true := by
  have hall : ∀ x, ∀ tid args, ((demoMem spill).heap x).exp.common.matcher.matches tid args = .ok true := by
    intro x tid args
    match x with
    | 0 => rfl
    | 1 => rfl
    | n + 2 => rfl
  refine C74_overflow (demoEnv spill) (demoMem spill) (demoMem_quiet _ (by decide)) (first ++ [.sync 1 2])
    second 0 2 [] [0] [] 1 rfl (by simp) ?_ ?_ rfl (by decide) ?_ ?_ ?_ act hact hfin
  · unfold CState.threadFree; decide
  · intro x hx
    rw [List.mem_singleton] at hx
    subst hx
    refine .inr ⟨rfl, by decide, first, [.sync 1 2], rfl, by decide, ?_⟩
    have h : ∀ act ∈ (wafter (demoEnv spill) (demoMem spill) first).cs.dispatched 0, act.tid = 1 := by
      decide
    intro act hact
    rw [h act hact]
    exact Hb.sync (before := []) (after := []) (.same _ _) (.same _ _)
  · intro x hx
    have : x = 0 ∨ x = 1 := by
      have : x ∈ [0, 1] := hx
      simpa using this
    rcases this with rfl | rfl <;> rfl
  · exact fun x _ act _ => ⟨_, hall x act.tid act.args⟩
  · intro x hx
    have : x = 0 ∨ x = 1 := by
      have : x ∈ [0, 1] := hx
      simpa using this
    rcases this with rfl | rfl <;> decide

/-- Such a call exists and returns. -/
example : (wafter (demoEnv spill) (demoMem spill)
    ((first ++ [.sync 1 2]) ++ .start 0 2 [] :: second)).cs.outcomes = [some (.ok 10), some (.ok 20)] := by rfl

/-- `C74_accept` at work, with all its hypotheses. -/
example (act : Act Nat)
    (hact : (wafter (demoEnv single) (demoMem single)
      ((.start 0 1 [] :: seqCall 0 0 0 1 1 ++ [.sync 1 2]) ++ .start 1 2 [] :: seqCall 1 0 1 1 1)).cs.acts[1]? =
      some act) (hvia : act.via = some 1) (hpass : act.passed = true) (hfin : act.finished = true) :
    ∃ v, act.pc = .done (.ok v) := by
  refine C74_accept (demoEnv single) (demoMem single) single_fresh.1 0 single_fresh.2
    (.start 0 1 [] :: seqCall 0 0 0 1 1 ++ [.sync 1 2]) (seqCall 1 0 1 1 1) 1 2 [] 1 1 rfl ?_ ?_
    ⟨rfl, 20, rfl⟩ (by decide) act hact hvia hpass hfin
  · unfold CState.threadFree; decide
  · intro j hj
    have : j = 0 := by omega
    subst this
    exact ⟨0, rfl, .start 0 1 [] :: seqCall 0 0 0 1 1, [.sync 1 2], rfl, _, List.mem_singleton.mpr rfl, rfl,
      ⟨10, rfl⟩, Hb.sync (before := []) (after := []) (.same _ _) (.same _ _)⟩

/-- Three overlapping calls of `counter`, whose loads see old counts.  They are counted all the same. -/
def counterStale : List (WSched Nat) :=
  [.start 0 1 [], .start 0 2 [], .start 0 3 [],
   .step 0, .step 0, .load 0 0, .step 1, .step 1, .step 2, .step 2, .step 0, .step 0, .load 1 0, .step 1,
   .step 1, .load 2 0, .step 2, .step 2, .load 0 1, .load 0 2, .load 1 3, .load 1 3, .step 0, .step 0,
   .step 0, .step 1, .step 1, .step 1]

/-- `C74_count`, `C74_ceiling`, `C74_exact`. -/
example : let s := wafter (demoEnv counter) (demoMem counter) counterStale
    s.cs.Idle ∧ (s.cs.mem.heap 0).count = 3 ∧ (s.cs.dispatched 0).length = 3 ∧
    (s.cs.answered 0).length = 2 ∧
    s.cs.outcomes = [some (.ok 0), some (.ok 1),
      some (.error (.call "f0" "<anything>" (.tooMany 3 2)))] := by
  refine ⟨?_, by rfl, by decide, by decide, by rfl⟩
  unfold CState.Idle
  decide

/-- `C74_verdict`: before joining anybody the owner could see any count; after joining all three threads
only the last one. -/
example : ((wafter (demoEnv counter) (demoMem counter) counterStale).CanSee 0 (.cnt 0) 1) ∧
    (∀ act ∈ (wafter (demoEnv counter) (demoMem counter) counterStale).cs.dispatched 0,
      Hb [.sync 1 0, .sync 2 0, (.sync 3 0 : WSched Nat)] act.tid 0) ∧
    ∀ v, (wafter (demoEnv counter) (demoMem counter)
      (counterStale ++ [.sync 1 0, .sync 2 0, .sync 3 0])).CanSee 0 (.cnt 0) v → v = 3 := by
  refine ⟨⟨1, by decide, by rfl⟩, ?_, ?_⟩
  · have h : ∀ act ∈ (wafter (demoEnv counter) (demoMem counter) counterStale).cs.dispatched 0,
        act.tid = 1 ∨ act.tid = 2 ∨ act.tid = 3 := by decide
    intro act hact
    rcases h act hact with h | h | h <;> rw [h]
    · exact Hb.sync (before := []) (after := [.sync 2 0, .sync 3 0]) (.same _ _) (.same _ _)
    · exact Hb.sync (before := [.sync 1 0]) (after := [.sync 3 0]) (.same _ _) (.same _ _)
    · exact Hb.sync (before := [.sync 1 0, .sync 2 0]) (after := []) (.same _ _) (.same _ _)
  · rintro v ⟨i, hi, hv⟩
    have hi : 3 ≤ i := hi
    have hv : [0, 1, 2, 3][i]? = some v := hv
    have : i < 4 := by
      rcases Nat.lt_or_ge i 4 with h | h
      · exact h
      · rw [List.getElem?_eq_none (by simpa using h)] at hv; cases hv
    have : i = 3 := by omega
    subst this
    simpa using hv.symm

/-- `C74_order` is about calls that return: see `single_synchronised`.  `C74_includes`: the race of C37 is
an execution of this machine too. -/
example : ∃ w : List (WSched Nat), (wafter (demoEnv spill) (demoMem spill) w).cs =
    after (demoEnv spill) (demoMem spill) spillRace :=
  C74_includes _ _ (demoMem_quiet _ (by decide)) _

end Examples

end Mockall
