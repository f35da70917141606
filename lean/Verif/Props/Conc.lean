import Verif.Lemmas.ConcMore
import Verif.Lemmas.ConcDemo

/-! # Concurrent calls on shared mocks (C35 to C39)

A concurrent phase starts in some memory `m0` in which no lock is held and ends whenever we look at
it; the schedule is an arbitrary list of decisions which thread starts a call of which method and
which running call makes its next atomic step. -/

set_option linter.unusedSimpArgs false

namespace Mockall

variable {V : Type}

/-- The state after a schedule. -/
def after (env : CEnv V) (m0 : Mem V) (sch : List (Sched V)) : CState V :=
  CState.run env sch ⟨m0, []⟩

/-- All calls made so far have returned or panicked. -/
def CState.Idle (s : CState V) : Prop := ∀ act ∈ s.acts, act.finished = true

/-- The calls that were dispatched to expectation `a`. -/
def CState.dispatched (s : CState V) (a : Nat) : List (Act V) :=
  s.acts.filter fun act => act.via == some a

/-- The calls answered by expectation `a`: dispatched to it, and returned. -/
def CState.answered (s : CState V) (a : Nat) : List (Act V) :=
  (s.dispatched a).filter fun act => match act.pc with | .done (.ok _) => true | _ => false

/-! ## C35 -/

theorem CInv.dispatched {m0 : Mem V} {s : CState V} (h : CInv m0 s) (hidle : s.Idle) (a : Nat) :
    (s.mem.heap a).count = ((m0.heap a).count + (s.dispatched a).length) % (usizeMax + 1) := by
  rw [h.count a]
  congr 2
  unfold CState.dispatched
  rw [← List.countP_eq_length_filter]
  apply List.countP_congr
  intro act hact
  have := hidle act hact
  unfold Act.counted
  unfold Act.finished at this
  cases hpc : act.pc <;> simp_all

/-- C35.  Whatever the schedule, once all calls are over the count recorded by an expectation is the
count it had before plus the number of calls dispatched to it (modulo 2^64). -/
theorem C35_count (env : CEnv V) (m0 : Mem V) (hq : m0.Quiet) (sch : List (Sched V))
    (hidle : (after env m0 sch).Idle) (a : Nat) :
    ((after env m0 sch).mem.heap a).count =
      ((m0.heap a).count + ((after env m0 sch).dispatched a).length) % (usizeMax + 1) :=
  CInv.dispatched (cinv_run env hq sch) hidle a

theorem CInv.verdict {m0 : Mem V} {s : CState V} (h : CInv m0 s) (hidle : s.Idle) (a : Nat)
    (info : FnInfo V) (total : Nat) (htotal : total = (m0.heap a).count + (s.dispatched a).length)
    (hfit : total ≤ usizeMax) (hpois : (s.mem.heap a).exp.common.mpoison = false) :
    (s.mem.heap a).exp.drop false info = .ok () ↔
      (m0.heap a).exp.common.times.range.start ≤ total ∧
        total < (m0.heap a).exp.common.times.range.end_ := by
  have hc := h.dispatched hidle a
  rw [← htotal, Nat.mod_eq_of_lt (by omega)] at hc
  have hr := (h.same a).range
  unfold Expectation.drop Common.drop
  rw [hpois]
  unfold Cell.count at hc
  simp only [Times.isSatisfied, Times.maximum, hc, hr]
  by_cases h1 : (m0.heap a).exp.common.times.range.start ≤ total <;>
    by_cases h2 : total < (m0.heap a).exp.common.times.range.end_ <;> simp [h1, h2]
  unfold subOne
  split <;> simp

/-- C35.  The verification of the expectation when it is dropped afterwards is decided by the total
number of calls dispatched to it: it succeeds iff that number is in the expected window.  (The matcher
must not have panicked, and fewer than 2^64 calls been made.) -/
theorem C35_verdict (env : CEnv V) (m0 : Mem V) (hq : m0.Quiet) (sch : List (Sched V))
    (hidle : (after env m0 sch).Idle) (a : Nat) (info : FnInfo V) (total : Nat)
    (htotal : total = (m0.heap a).count + ((after env m0 sch).dispatched a).length)
    (hfit : total ≤ usizeMax)
    (hpois : ((after env m0 sch).mem.heap a).exp.common.mpoison = false) :
    ((after env m0 sch).mem.heap a).exp.drop false info = .ok () ↔
      (m0.heap a).exp.common.times.range.start ≤ total ∧
        total < (m0.heap a).exp.common.times.range.end_ :=
  CInv.verdict (cinv_run env hq sch) hidle a info total htotal hfit hpois

/-! ## C36 -/

theorem CInv.ceiling {m0 : Mem V} {s : CState V} (h : CInv m0 s) (a max : Nat)
    (hmax : (m0.heap a).exp.common.times.range.end_ = max + 1)
    (hbefore : (m0.heap a).count ≤ max)
    (hfit : (m0.heap a).count + (s.dispatched a).length ≤ usizeMax) :
    (m0.heap a).count + (s.answered a).length ≤ max := by
  have hle : s.acts.countP (Act.counted a) ≤
      (s.dispatched a).length := by
    unfold CState.dispatched
    rw [← List.countP_eq_length_filter]
    apply List.countP_mono_left
    intro act _ hh
    simp [Act.counted] at hh
    simp [hh.1]
  have hp := h.passed a (Nat.le_trans (Nat.add_le_add_left hle _) hfit)
  have hans : (s.answered a).length ≤
      s.acts.countP (Act.passedAt a) := by
    unfold CState.answered CState.dispatched
    rw [List.filter_filter, ← List.countP_eq_length_filter]
    apply List.countP_mono_left
    intro act hact hh
    obtain ⟨c, hc⟩ := List.getElem?_of_mem hact
    have := h.coh c act hc
    unfold Act.Coh at this
    unfold Act.passedAt
    simp only [Bool.and_eq_true] at hh
    cases hpc : act.pc <;> simp [hpc] at hh
    next r =>
      cases r <;> simp [hpc] at hh
      simp [hpc] at this
      simp [hh, this.2]
  rw [hmax] at hp
  simp only [Nat.add_sub_cancel] at hp
  omega

/-- C36.  In every interleaving and at every moment: the calls an expectation has answered in this
phase, together with those counted before, never exceed the maximum of its window. -/
theorem C36_ceiling (env : CEnv V) (m0 : Mem V) (hq : m0.Quiet) (sch : List (Sched V)) (a max : Nat)
    (hmax : (m0.heap a).exp.common.times.range.end_ = max + 1)
    (hbefore : (m0.heap a).count ≤ max)
    (hfit : (m0.heap a).count + ((after env m0 sch).dispatched a).length ≤ usizeMax) :
    (m0.heap a).count + ((after env m0 sch).answered a).length ≤ max :=
  CInv.ceiling (cinv_run env hq sch) a max hmax hbefore hfit

/-- The calls made to method `mt`. -/
def CState.callsOf (s : CState V) (mt : Nat) : List (Act V) := s.acts.filter fun act => act.meth == mt

theorem CInv.exact {env : CEnv V} {m0 : Mem V} {s : CState V} (h : CInv m0 s)
    (hw : ∀ (c : Nat) (act : Act V), s.acts[c]? = some act → act.Within env) {mt a max : Nat}
    (hs : SoleInv env m0 mt a s) (hown : ∀ mt', a ∈ env.vec mt' → mt' = mt)
    (hmax : (m0.heap a).exp.common.times.range.end_ = max + 1) (hzero : (m0.heap a).count = 0)
    (hfit : s.acts.length ≤ usizeMax) (hidle : s.Idle) :
    ((s.callsOf mt).filter (·.passed)).length =
      min (s.callsOf mt).length max ∧
    ∀ act ∈ s.callsOf mt, act.passed = false →
      ∃ e, act.pc = .done (.error (.call (env.info mt).funcname
        (m0.heap a).exp.common.matcher.display e)) := by
  -- a finished call of the method went to the expectation
  have hvia : ∀ act ∈ s.acts, act.meth = mt → act.via = some a := by
    intro act hact hmt
    obtain ⟨c, hc⟩ := List.getElem?_of_mem hact
    have hfin := hidle act hact
    rcases hs.acts c act hc hmt with h1 | h1 | h1 | h1
    · simp [Act.finished, h1] at hfin
    · simp [Act.finished, h1] at hfin
    · simp [Act.finished, h1] at hfin
    · exact h1.1
  have hmeth : ∀ act ∈ s.acts, act.via = some a → act.meth = mt := by
    intro act hact hv
    obtain ⟨c, hc⟩ := List.getElem?_of_mem hact
    exact hown _ ((hw c act hc).via a hv)
  have e1 : s.acts.countP (Act.counted a) = (s.callsOf mt).length := by
    unfold CState.callsOf
    rw [← List.countP_eq_length_filter]
    apply List.countP_congr
    intro act hact
    have hfin := hidle act hact
    simp only [Act.counted, Bool.and_eq_true, beq_iff_eq]
    refine ⟨fun h => hmeth act hact h.1, fun h => ⟨hvia act hact h, ?_⟩⟩
    cases hpc : act.pc <;> simp_all [Act.finished]
  have e2 : s.acts.countP (Act.passedAt a) =
      ((s.callsOf mt).filter (·.passed)).length := by
    unfold CState.callsOf
    rw [List.filter_filter, ← List.countP_eq_length_filter]
    apply List.countP_congr
    intro act hact
    simp only [Act.passedAt, Bool.and_eq_true, beq_iff_eq]
    constructor
    · rintro ⟨h1, h2⟩; exact ⟨h2, hmeth act hact h1⟩
    · rintro ⟨h1, h2⟩; exact ⟨hvia act hact h2, h1⟩
  have hp := h.passed a
  rw [hzero, Nat.zero_add, e1, e2, hmax] at hp
  simp only [Nat.zero_min, Nat.add_zero, Nat.add_sub_cancel] at hp
  refine ⟨hp ?_, ?_⟩
  · unfold CState.callsOf
    exact Nat.le_trans (List.length_filter_le _ _) hfit
  · intro act hact hnp
    unfold CState.callsOf at hact
    obtain ⟨hact, hmt⟩ := List.mem_filter.mp hact
    obtain ⟨c, hc⟩ := List.getElem?_of_mem hact
    have hfin := hidle act hact
    rcases hs.acts c act hc (by simpa using hmt) with h1 | h1 | h1 | ⟨_, h1 | h1 | ⟨e, h1⟩ | h1⟩
    · simp [Act.finished, h1] at hfin
    · simp [Act.finished, h1] at hfin
    · simp [Act.finished, h1] at hfin
    · rw [hnp] at h1; cases h1
    · simp [Act.finished, h1] at hfin
    · simp [Act.finished, h1] at hfin
    · exact h1

/-- C36.  If a method has one expectation, which matches all calls, then in every interleaving exactly
`min m max` of its `m` calls get past the count check, and all others panic with the message that the
expectation was called too often. -/
theorem C36_exact (env : CEnv V) (m0 : Mem V) (hq : m0.Quiet) (sch : List (Sched V)) (mt a max : Nat)
    (hvec : env.vec mt = [a]) (hown : ∀ mt', a ∈ env.vec mt' → mt' = mt)
    (hmax : (m0.heap a).exp.common.times.range.end_ = max + 1)
    (hpois : (m0.heap a).exp.common.mpoison = false) (hzero : (m0.heap a).count = 0)
    (hmatch : ∀ act ∈ (after env m0 sch).callsOf mt,
      (m0.heap a).exp.common.matcher.matches act.tid act.args = .ok true)
    (hfit : (after env m0 sch).acts.length ≤ usizeMax)
    (hidle : (after env m0 sch).Idle) :
    (((after env m0 sch).callsOf mt).filter (·.passed)).length =
      min ((after env m0 sch).callsOf mt).length max ∧
    ∀ act ∈ (after env m0 sch).callsOf mt, act.passed = false →
      ∃ e, act.pc = .done (.error (.call (env.info mt).funcname
        (m0.heap a).exp.common.matcher.display e)) :=
  CInv.exact (cinv_run env hq sch) (within_run env m0 sch)
    (sole_run hq hvec hown (by omega) hpois sch
      (fun act hact hmt => hmatch act (by
        unfold CState.callsOf; exact List.mem_filter.mpr ⟨hact, by simp [hmt]⟩))
      (by rw [hzero, Nat.zero_add]; exact hfit)) hown hmax hzero hfit hidle

/-! ## C38 -/

/-- The call is executing the return function (user closure) of expectation `a`. -/
def Act.inClosure (act : Act V) (a : Nat) : Prop := act.pc = .run a

/-- C38.  In every interleaving, at every moment, at most one call executes the return closure of an
expectation. -/
theorem C38_exclusive (env : CEnv V) (m0 : Mem V) (hq : m0.Quiet) (sch : List (Sched V)) (a : Nat)
    (c d : Nat) (x y : Act V) (hc : (after env m0 sch).acts[c]? = some x)
    (hd : (after env m0 sch).acts[d]? = some y) (hx : x.inClosure a) (hy : y.inClosure a) : c = d := by
  have h := (cinv_run env hq sch).locks
  have h1 := (h.r a c).mpr ⟨x, hc, by rw [hx]; rfl⟩
  have h2 := (h.r a d).mpr ⟨y, hd, by rw [hy]; rfl⟩
  rw [h1] at h2
  injection h2

/-- The return function is a `return_once` closure named `t` that has not run yet. -/
def Ret.isOnce (t : Nat) : Ret V → Prop
  | .static (.once f) _ | .static (.onceSt _ f) _ => f.tag = t
  | _ => False

/-- The invariant for a `return_once` closure. -/
def OnceInv (a t : Nat) (m : Mem V) : Prop :=
  (∀ b, b ≠ a → (m.heap b).exp.ret.tag? ≠ some t) ∧
  (((m.heap a).exp.ret.isOnce t ∧ m.ranTimes t = 0) ∨
    ((m.heap a).exp.ret.tag? ≠ some t ∧ m.ranTimes t ≤ 1))

theorem OnceInv.le {a t : Nat} {m : Mem V} (h : OnceInv a t m) :
    (m.runs.filter fun r => r.tag == t).length ≤ 1 := by
  rcases h.2 with ⟨_, h⟩ | ⟨_, h⟩
  · unfold Mem.ranTimes at h; omega
  · exact h

theorem OnceInv.init {a t : Nat} {m0 : Mem V} (honce : (m0.heap a).exp.ret.isOnce t)
    (honly : ∀ b, b ≠ a → (m0.heap b).exp.ret.tag? ≠ some t) (hnew : ∀ r ∈ m0.runs, r.tag ≠ t) :
    OnceInv a t m0 := by
  refine ⟨honly, .inl ⟨honce, ?_⟩⟩
  unfold Mem.ranTimes
  rw [List.length_eq_zero_iff, List.filter_eq_nil_iff]
  intro r hr
  simpa using hnew r hr

theorem OnceInv.step {env : CEnv V} {a t id : Nat} {act act' : Act V} {m m' : Mem V}
    (h : OnceInv a t m) (hs : Act.Step env id act m act' m') : OnceInv a t m' := by
  obtain ⟨h1, h2⟩ := h
  obtain ⟨ht1, ht2⟩ := hs.tags
  refine ⟨?_, ?_⟩
  · intro b hb
    rcases ht1 b with h | h
    · rw [h]; exact h1 b hb
    · rw [h]; simp
  · -- the closure is consumed by the step that runs it
    have hcons : (m.heap a).exp.ret.isOnce t →
        ((m'.heap a).exp.ret.isOnce t ∧ m'.ranTimes t = m.ranTimes t) ∨
        ((m'.heap a).exp.ret.tag? ≠ some t ∧ m'.ranTimes t ≤ m.ranTimes t + 1) := by
      intro ho
      rcases hs.rets with ⟨e1, e2, _⟩ | ⟨b, r, p, p', o, hpc, hr, ho', e1, e2, e3, _⟩ |
        ⟨b, r, o, hpc, hr, ho', e1, e2, e3⟩
      · left
        refine ⟨?_, by simp [Mem.ranTimes, e1]⟩
        rcases e2 a with h | ⟨r, p, h, h'⟩
        · rw [h]; exact ho
        · rw [h']; rw [h] at ho; cases r <;> exact ho
      · by_cases hb : a = b
        · subst hb
          right
          refine ⟨?_, ?_⟩
          · rw [e2, ho']
            rw [hr] at ho
            cases r <;> simp only [Ret.isOnce] at ho
            · unfold StaticRfunc.callMut; simp only; split <;> simp [Ret.tag?]
            · unfold StaticRfunc.callMut; simp only; repeat' split
              all_goals simp [Ret.tag?]
          · simp only [Mem.ranTimes, e1, List.filter_append, List.length_append]
            rcases o.ran with _ | x
            · simp [runEntry]
            · simp only [runEntry]
              have := List.length_filter_le (fun r : Run V => r.tag == t)
                [⟨x, (env.cx act).tid, act.args⟩]
              simp only [List.length_cons, List.length_nil] at this
              omega
        · left
          refine ⟨by rw [e3 a hb]; exact ho, ?_⟩
          rcases ht2 with h | ⟨c, t', hc, htag, h⟩
          · simp [Mem.ranTimes, h]
          · have hcb : c = b := by rcases hc with hc | hc <;> rw [hpc] at hc <;> cases hc; rfl
            subst hcb
            have : t' ≠ t := by
              intro he; subst he
              exact h1 c (fun he => hb he.symm) htag
            simp [Mem.ranTimes, h, this]
      · have hb : a ≠ b := by
          intro he; subst he
          rw [hr] at ho
          exact ho
        left
        refine ⟨by rw [e3 a hb]; exact ho, ?_⟩
        rcases ht2 with h | ⟨c, t', hc, htag, h⟩
        · simp [Mem.ranTimes, h]
        · have hcb : c = b := by rcases hc with hc | hc <;> rw [hpc] at hc <;> cases hc; rfl
          subst hcb
          have : t' ≠ t := by
            intro he; subst he
            exact h1 c (fun he => hb he.symm) htag
          simp [Mem.ranTimes, h, this]
    rcases h2 with ⟨ho, hn⟩ | ⟨ho, hn⟩
    · rcases hcons ho with ⟨e1, e2⟩ | ⟨e1, e2⟩
      · exact .inl ⟨e1, by omega⟩
      · exact .inr ⟨e1, by omega⟩
    · right
      refine ⟨?_, ?_⟩
      · rcases ht1 a with h | h
        · rw [h]; exact ho
        · rw [h]; simp
      · rcases ht2 with h | ⟨c, t', hc, htag, h⟩
        · simp only [Mem.ranTimes, h]; exact hn
        · have : t' ≠ t := by
            intro he; subst he
            by_cases hca : c = a
            · subst hca; exact ho htag
            · exact h1 c hca htag
          simp only [Mem.ranTimes, h, List.filter_append]
          simp [this]
          exact hn

/-- C38.  A `return_once` closure (known as `t`, and given to one expectation) runs at most once, in
every interleaving. -/
theorem C38_once (env : CEnv V) (m0 : Mem V) (sch : List (Sched V)) (a t : Nat)
    (honce : (m0.heap a).exp.ret.isOnce t)
    (honly : ∀ b, b ≠ a → (m0.heap b).exp.ret.tag? ≠ some t) (hnew : ∀ r ∈ m0.runs, r.tag ≠ t) :
    ((after env m0 sch).mem.runs.filter fun r => r.tag == t).length ≤ 1 := by
  have h : OnceInv a t (after env m0 sch).mem :=
    CState.run_induct (P := fun s => OnceInv a t s.mem) (OnceInv.init honce honly hnew)
      (fun _ _ _ _ h _ => h) (fun _ _ _ _ _ h _ hs => h.step hs) sch
  exact h.le

/-- The argument lists with which the closure named `t` was run, in order. -/
def Mem.ranWith (m : Mem V) (t : Nat) : List (List V) :=
  (m.runs.filter fun r => r.tag == t).map (·.args)

/-- The invariant for a `returning` closure. -/
def HistInv (a t : Nat) (f : List (List V) → List V → Except Panic V) (s : CState V) : Prop :=
  (∀ b, b ≠ a → (s.mem.heap b).exp.ret.tag? ≠ some t) ∧
  (∃ p, (s.mem.heap a).exp.ret = .static (.mut { run := f, hist := s.mem.ranWith t, tag := t }) p) ∧
  (∀ (c : Nat) (x : Act V), s.acts[c]? = some x → x.via = some a → ∀ v, x.pc = .done (.ok v) →
    ∃ before later, s.mem.ranWith t = before ++ x.args :: later ∧ f before x.args = .ok v)

theorem HistInv.init {a t : Nat} {f : List (List V) → List V → Except Panic V} {m0 : Mem V}
    (hret : (m0.heap a).exp.ret = .static (.mut { run := f, tag := t }) false)
    (honly : ∀ b, b ≠ a → (m0.heap b).exp.ret.tag? ≠ some t) (hnew : ∀ r ∈ m0.runs, r.tag ≠ t) :
    HistInv a t f ⟨m0, []⟩ := by
  refine ⟨honly, ⟨false, ?_⟩, by simp⟩
  have : m0.ranWith t = [] := by
    simp only [Mem.ranWith, List.map_eq_nil_iff, List.filter_eq_nil_iff]
    intro r hr
    simpa using hnew r hr
  simp only
  rw [this]; exact hret

theorem HistInv.start {env : CEnv V} {a t : Nat} {f : List (List V) → List V → Except Panic V}
    {s : CState V} (h : HistInv a t f s) (meth tid : Nat) (args : List V) :
    HistInv a t f { s with acts := s.acts ++ [Act.start env meth tid args] } := by
  obtain ⟨h1, h2, h3⟩ := h
  refine ⟨h1, h2, ?_⟩
  intro c x hx hxv v hpc
  simp only [acts_push] at hx
  split at hx
  · cases hx; simp [Act.start] at hxv
  · exact h3 c x hx hxv v hpc

theorem HistInv.step {env : CEnv V} {a t : Nat} {f : List (List V) → List V → Except Panic V}
    {s : CState V} (h : HistInv a t f s) {id : Nat} {act act' : Act V} {m' : Mem V}
    (hcoh : act.Coh) (hact : s.acts[id]? = some act) (hs : Act.Step env id act s.mem act' m') :
    HistInv a t f { mem := m', acts := s.acts.set id act' } := by
  obtain ⟨h1, ⟨p, h2⟩, h3⟩ := h
  let H : CState V → List (List V) := fun s => s.mem.ranWith t
  change _ = Ret.static (.mut { run := f, hist := H s, tag := t }) p at h2
  change ∀ (c : Nat) (x : Act V), s.acts[c]? = some x → x.via = some a → ∀ v, x.pc = .done (.ok v) →
    ∃ before later, H s = before ++ x.args :: later ∧ f before x.args = .ok v at h3
  obtain ⟨ht1, ht2⟩ := hs.tags
  have hb : ∀ b, b ≠ a → (m'.heap b).exp.ret.tag? ≠ some t := by
    intro b hb
    rcases ht1 b with h | h
    · rw [h]; exact h1 b hb
    · rw [h]; simp
  have hcoh' := hs.coh hcoh
  have hid := hs.ident
  refine ⟨hb, ?_⟩
  change (∃ p, (m'.heap a).exp.ret = .static (.mut
    { run := f, hist := (H { mem := m', acts := s.acts.set id act' }), tag := t }) p) ∧ _
  have keep : ∀ s' : CState V, s'.acts = s.acts.set id act' → (∃ l, H s' = H s ++ l) →
      (∀ v, act'.via = some a → act'.pc = .done (.ok v) →
        ∃ before later, H s' = before ++ act'.args :: later ∧ f before act'.args = .ok v) →
      (∀ (c : Nat) (x : Act V), s'.acts[c]? = some x → x.via = some a → ∀ v, x.pc = .done (.ok v) →
        ∃ before later, H s' = before ++ x.args :: later ∧ f before x.args = .ok v) := by
    rintro s' hs' ⟨l, hl⟩ hnew' c x hx hxv w hw
    rw [hs', acts_set hact] at hx
    split at hx
    · cases hx; exact hnew' w hxv hw
    · obtain ⟨be, la, h4, h5⟩ := h3 c x hx hxv w hw
      exact ⟨be, la ++ l, by rw [hl, h4]; simp, h5⟩
  rcases hs.rets with ⟨e1, e2, e4⟩ | ⟨b, r, q, q', o, hpc, hr, ho', e1, e2, e3, e4⟩ |
    ⟨b, r, o, hpc, hr, ho', e1, e2, e3⟩
  · have hH : H { mem := m', acts := s.acts.set id act' } = H s := by simp only [H, Mem.ranWith, e1]
    refine ⟨?_, keep _ rfl ⟨[], by rw [hH, List.append_nil]⟩ ?_⟩
    · rw [hH]
      rcases e2 a with h | ⟨r, q, h, h'⟩
      · exact ⟨p, by rw [h]; exact h2⟩
      · rw [h2] at h
        cases h
        exact ⟨true, h'⟩
    · intro v hv hd
      exfalso
      obtain ⟨b, r, hpc, hr⟩ := e4 v hd
      have hba : b = a := by
        simp only [Act.Coh, hpc] at hcoh
        have : act'.via = act.via := by
          cases hs <;> first | rfl | (simp_all)
        rw [this, hcoh.1] at hv
        injection hv
      subst hba
      rw [h2] at hr; cases hr
  · by_cases hba : b = a
    · subst hba
      rw [h2] at hr
      cases hr
      have hout : o.out = (f (H s) act.args).map .ok ∧ o.ran = some t ∧
          o.next = .mut { run := f, hist := H s ++ [act.args], tag := t } := by
        rw [ho']
        unfold StaticRfunc.callMut Closure.call
        simp only
        cases f (H s) act.args <;> exact ⟨rfl, rfl, rfl⟩
      have hH : H { mem := m', acts := s.acts.set id act' } = H s ++ [act.args] := by
        simp only [H, Mem.ranWith, e1, hout.2.1, runEntry, List.filter_append, List.map_append]
        simp
      refine ⟨⟨q', ?_⟩, keep _ rfl ⟨_, hH⟩ ?_⟩
      · rw [hH]; rw [e2, hout.2.2]
      · intro v hv hd
        have := e4 v hd
        rw [hout.1] at this
        refine ⟨H s, [], by rw [hH, hid.2.2], ?_⟩
        rw [hid.2.2]
        cases hf : f (H s) act.args with
        | error p => rw [hf] at this; cases this
        | ok w => rw [hf] at this; cases this; rfl
    · have hH : H { mem := m', acts := s.acts.set id act' } = H s := by
        rcases ht2 with h | ⟨c, t', hc, htag, h⟩
        · simp only [H, Mem.ranWith, h]
        · have hcb : c = b := by rcases hc with hc | hc <;> rw [hpc] at hc <;> cases hc; rfl
          subst hcb
          have : t' ≠ t := by
            intro he; subst he
            exact h1 c hba htag
          simp [H, Mem.ranWith, h, this]
      refine ⟨⟨p, ?_⟩, keep _ rfl ⟨[], by rw [hH, List.append_nil]⟩ ?_⟩
      · rw [hH]; rw [e3 a (fun he => hba he.symm)]; exact h2
      · intro v hv hd
        exfalso
        simp only [Act.Coh, hpc] at hcoh
        have : act'.via = act.via := by
          cases hs <;> first | rfl | (simp_all)
        rw [this, hcoh.1] at hv
        injection hv with hv
        exact hba hv
  · have hba : b ≠ a := by
      intro he; subst he
      rw [h2] at hr; cases hr
    have hH : H { mem := m', acts := s.acts.set id act' } = H s := by
      rcases ht2 with h | ⟨c, t', hc, htag, h⟩
      · simp only [H, Mem.ranWith, h]
      · have hcb : c = b := by rcases hc with hc | hc <;> rw [hpc] at hc <;> cases hc; rfl
        subst hcb
        have : t' ≠ t := by
          intro he; subst he
          exact h1 c hba htag
        simp [H, Mem.ranWith, h, this]
    refine ⟨⟨p, ?_⟩, keep _ rfl ⟨[], by rw [hH, List.append_nil]⟩ ?_⟩
    · rw [hH]; rw [e3 a (fun he => hba he.symm)]; exact h2
    · intro v hv hd
      exfalso
      simp only [Act.Coh, hpc] at hcoh
      have : act'.via = act.via := by
        cases hs <;> first | rfl | (simp_all)
      rw [this, hcoh.1] at hv
      injection hv with hv
      exact hba hv

/-- C38.  The runs of a `returning` closure form one sequence, in every interleaving: each call
answered by it got what the closure yields for that call's arguments after some prefix of this
sequence of runs, and the prefix is followed by this very call's arguments. -/
theorem C38_history (env : CEnv V) (m0 : Mem V) (hq : m0.Quiet) (sch : List (Sched V)) (a t : Nat)
    (f : List (List V) → List V → Except Panic V)
    (hret : (m0.heap a).exp.ret = .static (.mut { run := f, tag := t }) false)
    (honly : ∀ b, b ≠ a → (m0.heap b).exp.ret.tag? ≠ some t) (hnew : ∀ r ∈ m0.runs, r.tag ≠ t)
    (act : Act V) (v : V) (hact : act ∈ (after env m0 sch).acts) (hvia : act.via = some a)
    (hv : act.pc = .done (.ok v)) :
    ∃ before later, ((after env m0 sch).mem.runs.filter fun r => r.tag == t).map (·.args) =
        before ++ act.args :: later ∧ f before act.args = .ok v := by
  have hh : CInv m0 (after env m0 sch) ∧ HistInv a t f (after env m0 sch) :=
    CState.run_induct (P := fun s => CInv m0 s ∧ HistInv a t f s)
      ⟨CInv.init hq, HistInv.init hret honly hnew⟩
      (fun _ meth tid args h _ => ⟨h.1.start meth tid args, h.2.start meth tid args⟩)
      (fun _ id act _ _ h hact hs => ⟨h.1.step hact hs, h.2.step (h.1.coh id act hact) hact hs⟩) sch
  obtain ⟨c, hc⟩ := List.getElem?_of_mem hact
  exact hh.2.2.2 c act hc hvia v hv

/-! ## The theorems apply -/

section Examples

/-- `times(2)`, with a closure that numbers its runs, on a method `f0` shared by three threads. -/
def counter : List (List (List (Build Nat))) :=
  [[[.times (.n 2), .returning { run := fun h _ => .ok h.length, tag := 7 }]]]

/-- Three overlapping calls. -/
def counterRace : List (Sched Nat) :=
  [.start 0 1 [], .start 0 2 [], .start 0 3 []] ++ steps (List.replicate 14 [0, 1, 2]).flatten

example : (demoMem counter).Quiet := demoMem_quiet _ (by decide)
example : (after (demoEnv counter) (demoMem counter) counterRace).Idle := by
  unfold CState.Idle; decide
/-- Two are answered, in some order, and one panics. -/
example : (after (demoEnv counter) (demoMem counter) counterRace).outcomes =
    [some (.ok 0), some (.ok 1), some (.error (.call "f0" "<anything>" (.tooMany 3 2)))] := by rfl
/-- C35, C36: the expectation has seen three calls. -/
example : ((after (demoEnv counter) (demoMem counter) counterRace).dispatched 0).length = 3 ∧
    ((after (demoEnv counter) (demoMem counter) counterRace).answered 0).length = 2 ∧
    ((after (demoEnv counter) (demoMem counter) counterRace).callsOf 0).length = 3 ∧
    ((after (demoEnv counter) (demoMem counter) counterRace).mem.heap 0).count = 3 := by decide
example : ((demoMem counter).heap 0).exp.common.times.range.end_ = 2 + 1 ∧
    ((demoMem counter).heap 0).count ≤ 2 ∧ (demoEnv counter).vec 0 = [0] := by decide
/-- C35: three calls are too many, two (one of which is still to be made here) would have been right. -/
example : ((after (demoEnv counter) (demoMem counter) counterRace).mem.heap 0).exp.drop false (demoInfo 0) =
    .error (.tooManyAtDrop "f0" "<anything>" 3 2) := by rfl
/-- Two overlapping calls, not yet finished. -/
def counterHalf : List (Sched Nat) :=
  [.start 0 1 [], .start 0 2 []] ++ steps (List.replicate 8 0 ++ List.replicate 12 1)
/-- C38: call 0 is in the closure and call 1 waits for it. -/
example : let s := after (demoEnv counter) (demoMem counter) counterHalf
    s.acts.map (fun act => match act.pc with | .run 0 => 1 | .ret 0 => 2 | _ => 0) = [1, 2] := by rfl
/-- C38: a `return_once` closure, two racing calls. -/
def onceOnly : List (List (List (Build Nat))) :=
  [[[.returnOnce { run := fun _ => .ok 4, tag := 7 }]]]
example : ((demoMem onceOnly).heap 0).exp.ret.isOnce 7 := rfl
def onceRace : List (Sched Nat) :=
  [.start 0 1 [], .start 0 2 []] ++ steps (List.replicate 14 [0, 1]).flatten
example : let s := after (demoEnv onceOnly) (demoMem onceOnly) onceRace
    s.outcomes = [some (.ok 4), some (.error (.ret "f0" "<anything>" .twice))] ∧
    (s.mem.runs.filter fun r => r.tag == 7).length = 1 := by exact ⟨by rfl, by rfl⟩

end Examples

end Mockall
