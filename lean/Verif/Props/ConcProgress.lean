import Verif.Props.Conc

/-! # Concurrent calls never get stuck (C57) -/

set_option linter.unusedSimpArgs false

namespace Mockall

variable {V : Type}

/-- Can call number `c` make a step? -/
def CState.canStep (env : CEnv V) (s : CState V) (c : Nat) : Prop :=
  ∃ act r, s.acts[c]? = some act ∧ act.step env c s.mem = some r

/-- Calls that execute a return function do so for an expectation that returns by value. -/
def StaticInv (s : CState V) : Prop := ∀ (c : Nat) (act : Act V), s.acts[c]? = some act →
  ∀ a, act.pc.holdsR = some a → ∃ r p, (s.mem.heap a).exp.ret = .static r p

theorem StaticInv.start {env : CEnv V} {s : CState V} (ih : StaticInv s) (meth tid : Nat)
    (args : List V) : StaticInv { s with acts := s.acts ++ [Act.start env meth tid args] } := by
  intro c act hact a ha
  simp only [acts_push] at hact
  split at hact
  · cases hact; simp [Act.start, Pc.holdsR] at ha
  · exact ih c act hact a ha

/-- An expectation that returns by value keeps doing so. -/
theorem Act.Step.static {env : CEnv V} {id : Nat} {act act' : Act V} {m m' : Mem V}
    (hs : Act.Step env id act m act' m') (b : Nat) (h : ∃ r p, (m.heap b).exp.ret = .static r p) :
    ∃ r p, (m'.heap b).exp.ret = .static r p := by
  obtain ⟨r, p, hb⟩ := h
  rcases hs.rets with ⟨_, e2, _⟩ | ⟨d, r', q, q', o, hpc, hr, ho', e1, e2, e3, _⟩ |
    ⟨d, r', o, hpc, hr, ho', e1, e2, e3⟩
  · rcases e2 b with h | ⟨r', q, h, h'⟩
    · exact ⟨r, p, by rw [h, hb]⟩
    · exact ⟨r', true, h'⟩
  · by_cases hbd : b = d
    · subst hbd; exact ⟨_, _, e2⟩
    · exact ⟨r, p, by rw [e3 b hbd, hb]⟩
  · have : b ≠ d := by
      intro he; subst he
      rw [hb] at hr; cases hr
    exact ⟨r, p, by rw [e3 b this, hb]⟩

theorem StaticInv.step {env : CEnv V} {s : CState V} (ih : StaticInv s) {id : Nat} {act act' : Act V}
    {m' : Mem V} (hact : s.acts[id]? = some act) (hs : Act.Step env id act s.mem act' m') :
    StaticInv { mem := m', acts := s.acts.set id act' } := by
  intro c x hx a ha
  simp only [acts_set hact] at hx
  split at hx
  · cases hx
    apply hs.static
    cases hs
    case retLock b r hpc hr free =>
      simp only [Act.goto, Pc.holdsR] at ha
      cases ha
      exact ⟨_, _, hr⟩
    case runErr b r p o e hpc hr ho hv =>
      simp only [Act.goto, Pc.holdsR] at ha
      cases ha
      exact ⟨_, _, hr⟩
    all_goals simp [Act.goto, Pc.holdsR] at ha
  · exact hs.static a (ih c x hx a ha)

theorem static_run (env : CEnv V) (m0 : Mem V) (sch : List (Sched V)) :
    StaticInv (after env m0 sch) :=
  CState.run_induct (P := StaticInv) (by simp [StaticInv])
    (fun _ meth tid args h _ => h.start meth tid args) (fun _ _ _ _ _ h hact hs => h.step hact hs) sch

/-- What a call that cannot go on waits for. -/
theorem Act.step_none {env : CEnv V} {c : Nat} {act : Act V} {m : Mem V}
    (h : act.step env c m = none) :
    act.finished = true ∨
    (∃ a d, a ∈ act.pc.addrs ∧ (m.heap a).mheld = some d ∧ act.pc.holdsM = none) ∨
    (∃ a d r p, act.pc = .ret a ∧ (m.heap a).rheld = some d ∧ (m.heap a).exp.ret = .static r p) ∨
    (∃ a, act.pc.holdsR = some a ∧ ∀ r p, (m.heap a).exp.ret ≠ .static r p) := by
  unfold Act.step at h
  simp only at h
  cases hpc : act.pc with
  | scan rest =>
    cases rest with
    | nil => simp [hpc] at h
    | cons a rest =>
      simp only [hpc] at h
      cases hmh : (m.heap a).mheld with
      | some d => exact .inr (.inl ⟨a, d, by simp [Pc.addrs], hmh, rfl⟩)
      | none => simp only [hmh] at h; split at h <;> cases h
  | matching a rest => simp [hpc] at h
  | check a rest =>
    simp only [hpc] at h
    repeat' split at h
    all_goals cases h
  | inc a => simp [hpc] at h
  | callFail a e =>
    simp only [hpc] at h
    cases hmh : (m.heap a).mheld with
    | some d => exact .inr (.inl ⟨a, d, by simp [Pc.addrs], hmh, rfl⟩)
    | none => simp [hmh] at h
  | verify a =>
    simp only [hpc] at h
    split at h <;> cases h
  | loadLow a => simp [hpc] at h
  | loadHigh a low => simp [hpc] at h
  | satisfy a => simp [hpc] at h
  | ret a =>
    simp only [hpc] at h
    cases hret : (m.heap a).exp.ret with
    | ref r => simp only [hret] at h; split at h <;> cases h
    | refMut r => simp [hret] at h
    | static r p =>
      simp only [hret] at h
      cases hrh : (m.heap a).rheld with
      | some d => exact .inr (.inr (.inl ⟨a, d, r, p, rfl, hrh, hret⟩))
      | none => simp only [hrh] at h; split at h <;> cases h
  | run a =>
    refine .inr (.inr (.inr ⟨a, rfl, ?_⟩))
    intro r p hret
    simp only [hpc, hret] at h
    split at h <;> cases h
  | runFail a e =>
    cases hmh : (m.heap a).mheld with
    | some d => exact .inr (.inl ⟨a, d, by simp [Pc.addrs], hmh, rfl⟩)
    | none =>
      refine .inr (.inr (.inr ⟨a, rfl, ?_⟩))
      intro r p hret
      simp [hpc, hmh, hret] at h
  | refFail a e =>
    simp only [hpc] at h
    cases hmh : (m.heap a).mheld with
    | some d => exact .inr (.inl ⟨a, d, by simp [Pc.addrs], hmh, rfl⟩)
    | none => simp [hmh] at h
  | done r => exact .inl (by simp [Act.finished, hpc])

/-- C57.  There is no deadlock: in every reachable state in which some call is not over, some
call can make a step. -/
theorem C57_progress (env : CEnv V) (m0 : Mem V) (hq : m0.Quiet) (sch : List (Sched V))
    (hbusy : ¬ (after env m0 sch).Idle) : ∃ c, (after env m0 sch).canStep env c := by
  have hl := (cinv_run env hq sch).locks
  change Locks (after env m0 sch) at hl
  have hst := static_run env m0 sch
  generalize after env m0 sch = s at *
  -- the holder of a matcher's lock can go on
  have hm : ∀ a c, (s.mem.heap a).mheld = some c → s.canStep env c := by
    intro a c h
    obtain ⟨act, hact, hh⟩ := (hl.m a c).mp h
    have : ∃ rest, act.pc = .matching a rest := by
      cases hpc : act.pc <;> simp [hpc, Pc.holdsM] at hh
      subst hh; exact ⟨_, rfl⟩
    obtain ⟨rest, hpc⟩ := this
    exact ⟨act, _, hact, by unfold Act.step; rw [hpc]⟩
  -- the holder of a return function's lock can go on, or waits for a matcher
  have hr : ∀ a c, (s.mem.heap a).rheld = some c → ∃ d, s.canStep env d := by
    intro a c h
    obtain ⟨act, hact, hh⟩ := (hl.r a c).mp h
    obtain ⟨r, p, hret⟩ := hst c act hact a hh
    cases hpc : act.pc <;> simp [hpc, Pc.holdsR] at hh
    · subst hh
      refine ⟨c, act, ?_⟩
      unfold Act.step
      rw [hpc]
      simp only [hret]
      split <;> exact ⟨_, hact, rfl⟩
    · subst hh
      rename_i b e
      cases hmh : (s.mem.heap b).mheld with
      | some d => exact ⟨d, hm b d hmh⟩
      | none =>
        refine ⟨c, act, ?_⟩
        unfold Act.step
        rw [hpc]
        simp only [hret, hmh]
        exact ⟨_, hact, rfl⟩
  -- take any call that is not over
  have : ∃ act ∈ s.acts, act.finished = false := by
    unfold CState.Idle at hbusy
    simp only [Classical.not_forall, not_imp] at hbusy
    obtain ⟨act, hact, h⟩ := hbusy
    exact ⟨act, hact, by simpa using h⟩
  obtain ⟨act, hmem, hf⟩ := this
  obtain ⟨c, hact⟩ := List.getElem?_of_mem hmem
  cases hstep : act.step env c s.mem with
  | some r => exact ⟨c, act, r, hact, hstep⟩
  | none =>
    -- it waits for a lock
    rcases Act.step_none hstep with h | ⟨a, d, _, h, _⟩ | ⟨a, d, _, _, _, h, _⟩ | ⟨a, h, hn⟩
    · rw [hf] at h; cases h
    · exact ⟨d, hm a d h⟩
    · exact hr a d h
    · obtain ⟨r, p, hret⟩ := hst c act hact a h
      exact absurd hret (hn r p)

/-! ### Every call is over after a bounded number of its own steps -/

/-- How many of its own steps a call can still make. -/
def Pc.fuel : Pc V → Nat
  | .scan rest => 3 * rest.length + 9
  | .matching _ rest => 3 * rest.length + 11
  | .check _ rest => 3 * rest.length + 10
  | .inc _ => 8
  | .callFail _ _ => 1
  | .verify _ => 7
  | .loadLow _ => 6
  | .loadHigh _ _ => 5
  | .satisfy _ => 4
  | .ret _ => 3
  | .run _ => 2
  | .runFail _ _ => 1
  | .refFail _ _ => 1
  | .done _ => 0

theorem Act.Step.fuel {env : CEnv V} {id : Nat} {act act' : Act V} {m m' : Mem V}
    (h : Act.Step env id act m act' m') : act'.pc.fuel < act.pc.fuel := by
  cases h <;> simp only [Act.goto, Pc.fuel, *] <;> (try simp only [List.length_cons]) <;> omega

/-- How many scheduling decisions of a schedule made a step of call number `c`. -/
def stepsOf (env : CEnv V) (c : Nat) : List (Sched V) → CState V → Nat
  | [], _ => 0
  | x :: xs, s =>
    (match x with
      | .step d =>
        if d = c && (match s.acts[c]? with | some act => (act.step env c s.mem).isSome | none => false)
        then 1 else 0
      | .start _ _ _ => 0) + stepsOf env c xs (s.step env x)

theorem stepsOf_fuel (env : CEnv V) (m0 : Mem V) (sch : List (Sched V)) (c : Nat) (act : Act V)
    (hact : (after env m0 sch).acts[c]? = some act) :
    stepsOf env c sch ⟨m0, []⟩ + act.pc.fuel ≤ 3 * (env.vec act.meth).length + 9 := by
  suffices H : ∀ (sch : List (Sched V)) (s : CState V) (k : Nat),
      (∀ x, s.acts[c]? = some x → k + x.pc.fuel ≤ 3 * (env.vec x.meth).length + 9) →
      (s.acts.length ≤ c → k = 0) →
      (∀ x, (CState.run env sch s).acts[c]? = some x →
        k + stepsOf env c sch s + x.pc.fuel ≤ 3 * (env.vec x.meth).length + 9) by
    have := H sch ⟨m0, []⟩ 0 (by simp) (by simp) act hact
    omega
  intro sch
  induction sch with
  | nil => intro s k h _ x hx; simpa [stepsOf] using h x hx
  | cons d ds ih =>
    intro s k h hk x hx
    change (CState.run env ds (s.step env d)).acts[c]? = some x at hx
    cases d with
    | start meth tid args =>
      simp only [stepsOf, Nat.zero_add]
      refine ih (s.step env (.start meth tid args)) k ?_ ?_ x hx
      · intro y hy
        unfold CState.step at hy
        simp only at hy
        split at hy
        · simp only [acts_push] at hy
          split at hy
          next hc =>
            cases hy
            have := hk (by omega)
            simp [Act.start, Pc.fuel, this]
          next => exact h y hy
        · exact h y hy
      · intro hlen
        apply hk
        unfold CState.step at hlen
        simp only at hlen
        split at hlen
        · simp at hlen; omega
        · exact hlen
    | step e =>
      have hlenEq : (s.step env (.step e)).acts.length = s.acts.length := by
        unfold CState.step
        simp only
        repeat' split
        all_goals simp
      by_cases he : e = c
      · subst he
        cases hc : s.acts[e]? with
        | none =>
          have hs : s.step env (.step e) = s := by unfold CState.step; simp only [hc]
          rw [hs] at hx
          simp only [stepsOf, hc, hs]
          simp only [Bool.and_false, Bool.false_eq_true, if_false, Nat.zero_add]
          exact ih s k h hk x hx
        | some y =>
          cases hst : y.step env e s.mem with
          | none =>
            have hs : s.step env (.step e) = s := by unfold CState.step; simp only [hc, hst]
            rw [hs] at hx
            simp only [stepsOf, hc, hst, hs]
            simp only [Option.isSome_none, Bool.and_false, Bool.false_eq_true, if_false, Nat.zero_add]
            exact ih s k h hk x hx
          | some r =>
            have hs : s.step env (.step e) = ⟨r.2, s.acts.set e r.1⟩ := by
              unfold CState.step; simp only [hc, hst]
            have hrel := Act.step_rel (act' := r.1) (m' := r.2) hst
            have hlt : e < s.acts.length := by
              rcases Nat.lt_or_ge e s.acts.length with h' | h'
              · exact h'
              · rw [List.getElem?_eq_none h'] at hc; cases hc
            simp only [stepsOf, hc, hst, Option.isSome_some, decide_true, Bool.and_true, if_true]
            have := ih (s.step env (.step e)) (k + 1) ?_ ?_ x hx
            · omega
            · intro z hz
              rw [hs] at hz
              simp only [acts_set hc, if_true] at hz
              cases hz
              have h1 := h y hc
              have h2 := hrel.fuel
              rw [hrel.ident.1]
              omega
            · rw [hlenEq]; intro h'; omega
      · have hsame : (s.step env (.step e)).acts[c]? = s.acts[c]? := by
          unfold CState.step
          simp only
          split
          · rfl
          next act' hact' =>
            split
            · rfl
            · simp only [acts_set hact']
              rw [if_neg (fun h => he h.symm)]
        simp only [stepsOf, he, decide_false, Bool.false_and, Bool.false_eq_true, if_false, Nat.zero_add]
        refine ih (s.step env (.step e)) k ?_ ?_ x hx
        · intro y hy; rw [hsame] at hy; exact h y hy
        · intro h'; rw [hlenEq] at h'; exact hk h'

/-- C57.  A call of a method with `n` expectations makes at most `3 * n + 9` steps of its own,
whatever the others do; waiting for locks is the only way to be delayed. -/
theorem C57_bounded (env : CEnv V) (m0 : Mem V) (sch : List (Sched V)) (c : Nat) (act : Act V)
    (hact : (after env m0 sch).acts[c]? = some act) :
    stepsOf env c sch ⟨m0, []⟩ ≤ 3 * (env.vec act.meth).length + 9 := by
  have := stepsOf_fuel env m0 sch c act hact
  omega

/-- The steps all calls together can still make. -/
def CState.fuel (s : CState V) : Nat := (s.acts.map fun act => act.pc.fuel).sum

theorem sum_set {α : Type} (g : α → Nat) (l : List α) (i : Nat) (x y : α) (h : l[i]? = some x) :
    ((l.set i y).map g).sum + g x = (l.map g).sum + g y := by
  induction l generalizing i with
  | nil => simp at h
  | cons z l ih =>
    cases i with
    | zero =>
      simp at h; subst h
      simp only [List.set_cons_zero, List.map_cons, List.sum_cons]
      omega
    | succ i =>
      simp at h
      simp only [List.set_cons_succ, List.map_cons, List.sum_cons]
      have := ih i h
      omega

theorem after_append (env : CEnv V) (m0 : Mem V) (a b : List (Sched V)) :
    after env m0 (a ++ b) = CState.run env b (after env m0 a) := by
  unfold after CState.run
  rw [List.foldl_append]

/-- C57.  Whatever has happened so far, the calls in progress can be brought to an end, without
starting any other call. -/
theorem C57_completes (env : CEnv V) (m0 : Mem V) (hq : m0.Quiet) (sch : List (Sched V)) :
    ∃ more : List Nat, (after env m0 (sch ++ more.map .step)).Idle ∧
      (after env m0 (sch ++ more.map .step)).acts.length = (after env m0 sch).acts.length := by
  suffices H : ∀ n (sch : List (Sched V)), (after env m0 sch).fuel = n →
      ∃ more : List Nat, (after env m0 (sch ++ more.map .step)).Idle ∧
        (after env m0 (sch ++ more.map .step)).acts.length = (after env m0 sch).acts.length from
    H _ sch rfl
  intro n
  induction n using Nat.strongRecOn with
  | _ n ih =>
    intro sch hn
    by_cases hidle : (after env m0 sch).Idle
    · exact ⟨[], by simpa using hidle, by simp⟩
    · obtain ⟨c, act, r, hact, hstep⟩ := C57_progress env m0 hq sch hidle
      have hnext : after env m0 (sch ++ [.step c]) =
          ⟨r.2, (after env m0 sch).acts.set c r.1⟩ := by
        rw [after_append]
        simp only [CState.run, List.foldl_cons, List.foldl_nil, CState.step, hact, hstep]
      have hf := sum_set (fun act : Act V => act.pc.fuel) (after env m0 sch).acts c act r.1 hact
      have hlt := (Act.step_rel (act' := r.1) (m' := r.2) hstep).fuel
      have hfuel : (after env m0 (sch ++ [.step c])).fuel < n := by
        rw [hnext, ← hn]
        unfold CState.fuel
        simp only
        omega
      obtain ⟨more, h1, h2⟩ := ih _ hfuel (sch ++ [.step c]) rfl
      refine ⟨c :: more, ?_, ?_⟩
      · simpa using h1
      · have : (after env m0 (sch ++ [.step c])).acts.length = (after env m0 sch).acts.length := by
          rw [hnext]; simp
        rw [← this, ← h2]
        simp

/-- A state that is not idle, in which call 1 has to wait for the closure run by call 0, and which can be
brought to an end. -/
example : let s := after (demoEnv counter) (demoMem counter) counterHalf
    ¬ s.Idle ∧ s.canStep (demoEnv counter) 0 ∧
    (s.acts[1]?.bind fun act => act.step (demoEnv counter) 1 s.mem).isSome = false := by
  refine ⟨?_, ⟨_, _, rfl, rfl⟩, by rfl⟩
  unfold CState.Idle; decide

/-- How many steps a call makes: ten here, with one expectation. -/
example : stepsOf (demoEnv counter) 0 counterRace ⟨demoMem counter, []⟩ = 10 := by rfl

end Mockall
