import Verif.Lemmas.ConcStep

/-! # Invariants of concurrent executions -/

set_option linter.unusedSimpArgs false

namespace Mockall

variable {V : Type}

@[simp] theorem Mem.put_heap (m : Mem V) (a b : Nat) (c : Cell V) :
    (m.put a c).heap b = if b = a then c else m.heap b := rfl

@[simp] theorem Mem.put_seqs (m : Mem V) (a : Nat) (c : Cell V) : (m.put a c).seqs = m.seqs := rfl

@[simp] theorem Mem.put_runs (m : Mem V) (a : Nat) (c : Cell V) : (m.put a c).runs = m.runs := rfl

/-! ## What no step changes -/

/-- The configuration of an expectation, which calls do not change. -/
structure Cell.Same (c d : Cell V) : Prop where
  matcher : c.exp.common.matcher = d.exp.common.matcher
  range : c.exp.common.times.range = d.exp.common.times.range
  handle : c.exp.common.seqHandle = d.exp.common.seqHandle

theorem Cell.Same.refl (c : Cell V) : c.Same c := ⟨rfl, rfl, rfl⟩

theorem Cell.Same.trans {c d e : Cell V} (h : c.Same d) (k : d.Same e) : c.Same e :=
  ⟨h.1.trans k.1, h.2.trans k.2, h.3.trans k.3⟩

theorem ret_call_common (cx : Cx V) (info : FnInfo V) (args : List V) (e : Expectation V)
    (w : World V) : (e.ret_call cx info args w).2.1.common = e.common := by
  unfold Expectation.ret_call
  simp only
  repeat' split
  all_goals rfl

theorem Act.Step.same {env : CEnv V} {id : Nat} {act act' : Act V} {m m' : Mem V}
    (h : Act.Step env id act m act' m') (b : Nat) : (m'.heap b).Same (m.heap b) := by
  cases h <;> try exact .refl _
  all_goals
    simp only [Mem.put_heap]
    split
    next hb => subst hb; first
      | exact ⟨rfl, rfl, rfl⟩
      | (subst_vars; exact ⟨by simp only [ret_call_common], by simp only [ret_call_common],
          by simp only [ret_call_common]⟩)
    next => exact .refl _

theorem Act.Step.ident {env : CEnv V} {id : Nat} {act act' : Act V} {m m' : Mem V}
    (h : Act.Step env id act m act' m') :
    act'.meth = act.meth ∧ act'.tid = act.tid ∧ act'.args = act.args := by
  cases h <;> exact ⟨rfl, rfl, rfl⟩

/-! ## Ghost fields agree with the program counter -/

/-- What the program counter says about the ghost fields. -/
def Act.Coh (act : Act V) : Prop :=
  match act.pc with
  | .scan _ | .matching _ _ | .check _ _ => act.via = none ∧ act.passed = false
  | .inc a | .callFail a _ => act.via = some a ∧ act.passed = false
  | .verify a | .loadLow a | .loadHigh a _ | .satisfy a | .ret a | .run a | .runFail a _
  | .refFail a _ => act.via = some a ∧ act.passed = true
  | .done (.ok _) => act.via ≠ none ∧ act.passed = true
  | .done (.error _) => act.passed = true → act.via ≠ none

theorem Act.Step.coh {env : CEnv V} {id : Nat} {act act' : Act V} {m m' : Mem V}
    (h : Act.Step env id act m act' m') (hc : act.Coh) : act'.Coh := by
  cases h
  case refMut a r o hpc hr ho =>
    simp only [Act.Coh, hpc] at hc
    simp only [Act.Coh, Act.goto]
    cases o.1 <;> simp_all
  all_goals simp_all [Act.Coh, Act.goto]

theorem Act.start_coh (env : CEnv V) (meth tid : Nat) (args : List V) :
    (Act.start env meth tid args).Coh := ⟨rfl, rfl⟩

/-! ## Locks -/

/-- The expectation whose matcher's lock a call holds. -/
def Pc.holdsM : Pc V → Option Nat
  | .matching a _ => some a
  | _ => none

/-- The expectation whose return function's lock a call holds. -/
def Pc.holdsR : Pc V → Option Nat
  | .run a => some a
  | .runFail a _ => some a
  | _ => none

theorem Act.Step.mheld {env : CEnv V} {id : Nat} {act act' : Act V} {m m' : Mem V}
    (h : Act.Step env id act m act' m') (b : Nat) :
    (m'.heap b).mheld =
      (if act'.pc.holdsM = some b then some id
        else if act.pc.holdsM = some b then none else (m.heap b).mheld) ∧
    (act'.pc.holdsM = some b → (m.heap b).mheld = none) := by
  cases h
  case lock a rest hpc free hp =>
    simp only [Mem.put_heap, Act.goto, Pc.holdsM, hpc, Cell.mlock]
    by_cases hb : b = a
    · subst hb; simp [free]
    · have : ¬ a = b := fun h => hb h.symm
      simp [hb, this]
  case matchPanic a rest p hpc hm =>
    simp only [Mem.put_heap, Act.goto, Pc.holdsM, hpc, Cell.mlock]
    by_cases hb : b = a
    · subst hb; simp
    · have : ¬ a = b := fun h => hb h.symm
      simp [hb, this]
  case matchNo a rest hpc hm =>
    simp only [Mem.put_heap, Act.goto, Pc.holdsM, hpc, Cell.mlock]
    by_cases hb : b = a
    · subst hb; simp
    · have : ¬ a = b := fun h => hb h.symm
      simp [hb, this]
  case matchYes a rest hpc hm =>
    simp only [Mem.put_heap, Act.goto, Pc.holdsM, hpc, Cell.mlock]
    by_cases hb : b = a
    · subst hb; simp
    · have : ¬ a = b := fun h => hb h.symm
      simp [hb, this]
  all_goals
    simp only [Mem.put_heap, Act.goto, Pc.holdsM, *]
    refine ⟨?_, by simp⟩
    simp only [reduceCtorEq, if_false]
    try (split <;> (try subst_vars) <;> rfl)

theorem Act.Step.rheld {env : CEnv V} {id : Nat} {act act' : Act V} {m m' : Mem V}
    (h : Act.Step env id act m act' m') (b : Nat) (own : ∀ a, act.pc.holdsR = some a →
      (m.heap a).rheld = some id) :
    (m'.heap b).rheld =
      (if act'.pc.holdsR = some b then some id
        else if act.pc.holdsR = some b then none else (m.heap b).rheld) ∧
    (act'.pc.holdsR = some b → (m.heap b).rheld = none ∨ (m.heap b).rheld = some id) := by
  cases h
  case retLock a r hpc hr free =>
    simp only [Mem.put_heap, Act.goto, Pc.holdsR, hpc, Cell.rlock]
    by_cases hb : b = a
    · subst hb; simp [free]
    · have : ¬ a = b := fun h => hb h.symm
      simp [hb, this]
  case runErr a r poison o e hpc hr ho hv =>
    have := own a (by simp [hpc, Pc.holdsR])
    simp only [Mem.put_heap, Act.goto, Pc.holdsR, hpc, Cell.rlock, Cell.setRet]
    by_cases hb : b = a
    · subst hb; simp [this]
    · have : ¬ a = b := fun h => hb h.symm
      simp [hb, this]
  case runOk a r poison o v hpc hr ho hv =>
    simp only [Mem.put_heap, Act.goto, Pc.holdsR, hpc, Cell.rlock]
    by_cases hb : b = a
    · subst hb; simp
    · have : ¬ a = b := fun h => hb h.symm
      simp [hb, this]
  case runPanic a r poison o v hpc hr ho hv =>
    simp only [Mem.put_heap, Act.goto, Pc.holdsR, hpc, Cell.rlock]
    by_cases hb : b = a
    · subst hb; simp
    · have : ¬ a = b := fun h => hb h.symm
      simp [hb, this]
  case runFail a e r poison hpc hr free =>
    simp only [Mem.put_heap, Act.goto, Pc.holdsR, hpc, Cell.rlock]
    by_cases hb : b = a
    · subst hb; simp
    · have : ¬ a = b := fun h => hb h.symm
      simp [hb, this]
  all_goals
    simp only [Mem.put_heap, Act.goto, Pc.holdsR, *]
    refine ⟨?_, by simp⟩
    simp only [reduceCtorEq, if_false]
    try (split <;> (try subst_vars) <;> rfl)

/-- Who holds which lock. -/
structure Locks (s : CState V) : Prop where
  m : ∀ a c, (s.mem.heap a).mheld = some c ↔
    ∃ act, s.acts[c]? = some act ∧ act.pc.holdsM = some a
  r : ∀ a c, (s.mem.heap a).rheld = some c ↔
    ∃ act, s.acts[c]? = some act ∧ act.pc.holdsR = some a

/-- `acts` with one call replaced. -/
theorem acts_set {acts : List (Act V)} {id : Nat} {act act' : Act V} (h : acts[id]? = some act)
    (c : Nat) : (acts.set id act')[c]? = if c = id then some act' else acts[c]? := by
  have hl : id < acts.length := by
    rcases Nat.lt_or_ge id acts.length with h' | h'
    · exact h'
    · rw [List.getElem?_eq_none h'] at h; cases h
  rw [List.getElem?_set]
  by_cases hc : c = id
  · subst hc; simp [hl]
  · have : ¬ id = c := fun h => hc h.symm
    simp [hc, this]

theorem acts_push (acts : List (Act V)) (act : Act V) (c : Nat) :
    (acts ++ [act])[c]? = if c = acts.length then some act else acts[c]? := by
  rcases Nat.lt_trichotomy c acts.length with h | h | h
  · rw [List.getElem?_append_left h]
    have : ¬ c = acts.length := by omega
    simp [this]
  · subst h; simp
  · have : ¬ c = acts.length := by omega
    rw [List.getElem?_eq_none (by simp; omega), List.getElem?_eq_none (by omega)]
    simp [this]

theorem Locks.start {env : CEnv V} {s : CState V} (h : Locks s) (meth tid : Nat) (args : List V) :
    Locks { s with acts := s.acts ++ [Act.start env meth tid args] } := by
  constructor
  · intro a c
    simp only [acts_push]
    rw [h.m]
    by_cases hc : c = s.acts.length
    · subst hc; simp [Act.start, Pc.holdsM]
    · simp [hc]
  · intro a c
    simp only [acts_push]
    rw [h.r]
    by_cases hc : c = s.acts.length
    · subst hc; simp [Act.start, Pc.holdsR]
    · simp [hc]

theorem Locks.step {env : CEnv V} {s : CState V} {id : Nat} {act act' : Act V} {m' : Mem V}
    (h : Locks s) (hact : s.acts[id]? = some act) (hs : Act.Step env id act s.mem act' m') :
    Locks { mem := m', acts := s.acts.set id act' } := by
  constructor
  · intro a c
    simp only [acts_set hact]
    obtain ⟨h1, h2⟩ := hs.mheld a
    rw [h1]
    by_cases hc : c = id
    · subst hc
      simp only [if_true, Option.some.injEq, exists_eq_left']
      constructor
      · intro hh
        split at hh
        next h' => exact h'
        next =>
          split at hh
          · cases hh
          next h'' =>
            obtain ⟨x, hx, hxa⟩ := (h.m a c).mp hh
            rw [hact] at hx; cases hx
            exact absurd hxa h''
      · intro hh; simp [hh]
    · simp only [hc, if_false]
      rw [← h.m]
      split
      next h' =>
        have := h2 h'
        rw [this]
        simp
        exact fun h => hc h.symm
      next =>
        split
        next h'' =>
          have : (s.mem.heap a).mheld = some id := (h.m a id).mpr ⟨act, hact, h''⟩
          rw [this]
          simp
          exact fun h => hc h.symm
        next => rfl
  · intro a c
    simp only [acts_set hact]
    have own : ∀ a, act.pc.holdsR = some a → (s.mem.heap a).rheld = some id :=
      fun a ha => (h.r a id).mpr ⟨act, hact, ha⟩
    obtain ⟨h1, h2⟩ := hs.rheld a own
    rw [h1]
    by_cases hc : c = id
    · subst hc
      simp only [if_true, Option.some.injEq, exists_eq_left']
      constructor
      · intro hh
        split at hh
        next h' => exact h'
        next =>
          split at hh
          · cases hh
          next h'' =>
            obtain ⟨x, hx, hxa⟩ := (h.r a c).mp hh
            rw [hact] at hx; cases hx
            exact absurd hxa h''
      · intro hh; simp [hh]
    · simp only [hc, if_false]
      rw [← h.r]
      split
      next h' =>
        have : ¬ id = c := fun h => hc h.symm
        rcases h2 h' with h2 | h2 <;> rw [h2] <;> simp [this]
      next =>
        split
        next h'' =>
          rw [own a h'']
          simp
          exact fun h => hc h.symm
        next => rfl

/-! ## Counting calls -/

theorem countP_set {α : Type} (p : α → Bool) (l : List α) (i : Nat) (x y : α) (h : l[i]? = some x) :
    (l.set i y).countP p + (if p x then 1 else 0) = l.countP p + (if p y then 1 else 0) := by
  induction l generalizing i with
  | nil => simp at h
  | cons z l ih =>
    cases i with
    | zero =>
      simp at h; subst h
      simp only [List.set_cons_zero, List.countP_cons]
      omega
    | succ i =>
      simp at h
      simp only [List.set_cons_succ, List.countP_cons]
      have := ih i h
      omega

/-- Was the call handed to expectation `a`, and has it been counted there? -/
def Act.counted (a : Nat) (act : Act V) : Bool :=
  act.via == some a && (match act.pc with | .inc _ => false | _ => true)

/-- Was the call handed to expectation `a`? -/
def Act.hit (a : Nat) (act : Act V) : Bool := act.via == some a

/-- Was the call handed to expectation `a`, and got it past the count check? -/
def Act.passedAt (a : Nat) (act : Act V) : Bool := act.via == some a && act.passed

/-- How the count changes with a step. -/
theorem Act.Step.count {env : CEnv V} {id : Nat} {act act' : Act V} {m m' : Mem V}
    (h : Act.Step env id act m act' m') (hc : act.Coh) (b : Nat) :
    ((m'.heap b).count = (m.heap b).count ∧ act'.counted b = act.counted b ∧
      act'.passedAt b = act.passedAt b) ∨
    ((m'.heap b).count = atomicInc (m.heap b).count ∧ act.pc = .inc b ∧ act.counted b = false ∧
      act'.counted b = true ∧ act.passedAt b = false ∧
      (act'.passedAt b = true ↔ (m.heap b).exp.common.times.call.1 = .ok (.ok ()))) := by
  cases h
  case refMut a r o hpc hr ho =>
    left
    simp only [Act.Coh, hpc] at hc
    refine ⟨?_, by simp [Act.counted, Act.goto, hpc], by simp [Act.passedAt, Act.goto, hpc]⟩
    simp only [Mem.put_heap]
    split
    next hb => subst hb; subst ho; simp only [Cell.count, ret_call_common]
    next => rfl
  case incPanic a p hpc hcall =>
    simp only [Act.Coh, hpc] at hc
    by_cases hb : b = a
    · subst hb
      right
      simp [Mem.put_heap, Cell.bump, Cell.count, hpc, Act.counted, Act.passedAt, Act.goto, hc, hcall]
    · left
      have : ¬ a = b := fun h => hb h.symm
      simp [Mem.put_heap, hb, Act.counted, Act.passedAt, Act.goto, hc, hpc, this]
  case incFail a p hpc hcall =>
    simp only [Act.Coh, hpc] at hc
    by_cases hb : b = a
    · subst hb
      right
      simp [Mem.put_heap, Cell.bump, Cell.count, hpc, Act.counted, Act.passedAt, Act.goto, hc, hcall]
    · left
      have : ¬ a = b := fun h => hb h.symm
      simp [Mem.put_heap, hb, Act.counted, Act.passedAt, Act.goto, hc, hpc, this]
  case incOk a hpc hcall =>
    simp only [Act.Coh, hpc] at hc
    by_cases hb : b = a
    · subst hb
      right
      simp [Mem.put_heap, Cell.bump, Cell.count, hpc, Act.counted, Act.passedAt, Act.goto, hc, hcall]
    · left
      have : ¬ a = b := fun h => hb h.symm
      simp [Mem.put_heap, hb, Act.counted, Act.passedAt, Act.goto, hc, hpc, this]
  all_goals
    left
    refine ⟨?_, ?_, ?_⟩
    · simp only [Mem.put_heap]
      try split
      all_goals first
        | rfl
        | (subst_vars; rfl)
    · simp_all [Act.counted, Act.goto, Act.Coh]
    · simp_all [Act.passedAt, Act.goto, Act.Coh]

/-- No lock is held, and counts are `usize` values. -/
structure Mem.Quiet (m : Mem V) : Prop where
  mfree : ∀ a, (m.heap a).mheld = none
  rfree : ∀ a, (m.heap a).rheld = none
  count : ∀ a, (m.heap a).count ≤ usizeMax

theorem atomicInc_mod (n : Nat) (h : n ≤ usizeMax) : atomicInc n = (n + 1) % (usizeMax + 1) := by
  unfold atomicInc
  split
  · subst n; simp
  · rw [Nat.mod_eq_of_lt]; omega

/-- The number of calls that pass the count check of a window with the given end, among the calls
number `c0 + 1` to `c0 + n`. -/
theorem min_step (c e : Nat) :
    min (c + 1) (e - 1) = min c (e - 1) + (if c + 1 < e then 1 else 0) := by
  split <;> omega

theorem times_call_ok {t : Times} (h : t.count < usizeMax) :
    t.call.1 = .ok (.ok ()) ↔ t.count + 1 < t.range.end_ := by
  unfold Times.call
  simp only [addOne]
  rw [if_neg (by omega)]
  simp only
  split
  next h1 =>
    constructor
    · intro h2
      exfalso
      revert h2
      repeat' split
      all_goals simp
    · intro h2; omega
  next h1 =>
    constructor
    · intro _; omega
    · intro _; rfl

/-- Everything that holds throughout a concurrent phase that starts in memory `m0`. -/
structure CInv (m0 : Mem V) (s : CState V) : Prop where
  same : ∀ a, (s.mem.heap a).Same (m0.heap a)
  coh : ∀ (c : Nat) (act : Act V), s.acts[c]? = some act → act.Coh
  locks : Locks s
  count : ∀ a, (s.mem.heap a).count =
    ((m0.heap a).count + s.acts.countP (Act.counted a)) % (usizeMax + 1)
  passed : ∀ a, (m0.heap a).count + s.acts.countP (Act.counted a) ≤ usizeMax →
    s.acts.countP (Act.passedAt a) + min (m0.heap a).count ((m0.heap a).exp.common.times.range.end_ - 1)
      = min ((m0.heap a).count + s.acts.countP (Act.counted a))
          ((m0.heap a).exp.common.times.range.end_ - 1)

theorem CInv.init {m0 : Mem V} (h : m0.Quiet) : CInv m0 ⟨m0, []⟩ := by
  refine ⟨fun a => .refl _, by simp, ⟨?_, ?_⟩, ?_, ?_⟩
  · intro a c; simp [h.mfree a]
  · intro a c; simp [h.rfree a]
  · intro a
    have := h.count a
    simp only [List.countP_nil, Nat.add_zero]
    rw [Nat.mod_eq_of_lt (by omega)]
  · intro a _; simp

theorem CInv.start {env : CEnv V} {m0 : Mem V} {s : CState V} (h : CInv m0 s)
    (meth tid : Nat) (args : List V) :
    CInv m0 { s with acts := s.acts ++ [Act.start env meth tid args] } := by
  have hc : ∀ a, (s.acts ++ [Act.start env meth tid args]).countP (Act.counted a)
      = s.acts.countP (Act.counted a) := by
    intro a; simp [List.countP_append, Act.start, Act.counted]
  have hp : ∀ a, (s.acts ++ [Act.start env meth tid args]).countP (Act.passedAt a)
      = s.acts.countP (Act.passedAt a) := by
    intro a; simp [List.countP_append, Act.start, Act.passedAt]
  refine ⟨h.same, ?_, h.locks.start meth tid args, ?_, ?_⟩
  · intro c act hact
    simp only [acts_push] at hact
    split at hact
    · cases hact; exact Act.start_coh env meth tid args
    · exact h.coh c act hact
  · intro a; simp only [hc]; exact h.count a
  · intro a; simp only [hc, hp]; exact h.passed a

theorem CInv.step {env : CEnv V} {m0 : Mem V} {s : CState V} (h : CInv m0 s) {id : Nat}
    {act act' : Act V} {m' : Mem V} (hact : s.acts[id]? = some act)
    (hs : Act.Step env id act s.mem act' m') :
    CInv m0 { mem := m', acts := s.acts.set id act' } := by
  have hcoh := h.coh id act hact
  refine ⟨fun a => (hs.same a).trans (h.same a), ?_, h.locks.step hact hs, ?_, ?_⟩
  · intro c x hx
    simp only [acts_set hact] at hx
    split at hx
    · cases hx; exact hs.coh hcoh
    · exact h.coh c x hx
  · intro a
    have h1 := countP_set (Act.counted a) s.acts id act act' hact
    have h2 := h.count a
    rcases hs.count hcoh a with ⟨e1, e2, _⟩ | ⟨e1, _, e2, e3, _⟩
    · rw [e2] at h1
      have : (s.acts.set id act').countP (Act.counted a) = s.acts.countP (Act.counted a) := by omega
      simp only [this, e1, h2]
    · simp only [e2, e3, if_true, Bool.false_eq_true, if_false, Nat.add_zero] at h1
      simp only [e1]
      rw [atomicInc_mod _ (by rw [h2]; have := Nat.mod_lt ((m0.heap a).count +
        s.acts.countP (Act.counted a)) (show 0 < usizeMax + 1 by omega); omega), h2, h1]
      rw [Nat.mod_add_mod, Nat.add_assoc]
  · intro a
    simp only
    intro hb
    have h1 := countP_set (Act.counted a) s.acts id act act' hact
    have h3 := countP_set (Act.passedAt a) s.acts id act act' hact
    have h2 := h.count a
    rcases hs.count hcoh a with ⟨e1, e2, e3⟩ | ⟨e1, _, e2, e3, e4, e5⟩
    · rw [e2] at h1
      rw [e3] at h3
      have q1 : (s.acts.set id act').countP (Act.counted a) = s.acts.countP (Act.counted a) := by omega
      have q2 : (s.acts.set id act').countP (Act.passedAt a) = s.acts.countP (Act.passedAt a) := by
        omega
      rw [q1] at hb ⊢
      rw [q2]
      exact h.passed a hb
    · simp only [e2, e3, if_true, Bool.false_eq_true, if_false, Nat.add_zero] at h1
      simp only [e4, Bool.false_eq_true, if_false, Nat.add_zero] at h3
      rw [h1] at hb ⊢
      have hp := h.passed a (by omega)
      rw [Nat.mod_eq_of_lt (by omega)] at h2
      have hok := times_call_ok (t := (s.mem.heap a).exp.common.times) (by
        show (s.mem.heap a).count < usizeMax
        omega)
      rw [(h.same a).range] at hok
      change _ ↔ (s.mem.heap a).count + 1 < _ at hok
      rw [h2] at hok
      rw [hok] at e5
      rw [h3, ← Nat.add_assoc, min_step]
      by_cases hlt : (m0.heap a).count + s.acts.countP (Act.counted a) + 1 <
          (m0.heap a).exp.common.times.range.end_
      · rw [if_pos (e5.mpr hlt), if_pos hlt]; omega
      · rw [if_neg (fun hh => hlt (e5.mp hh)), if_neg hlt]; omega

theorem cinv_run (env : CEnv V) {m0 : Mem V} (h : m0.Quiet) (sch : List (Sched V)) :
    CInv m0 (CState.run env sch ⟨m0, []⟩) :=
  CState.run_induct (CInv.init h) (fun _ meth tid args hi _ => hi.start meth tid args)
    (fun _ _ _ _ _ hi hact hs => hi.step hact hs) sch

/-! ## Steps by program counter -/

theorem Act.Step.of_scan {env : CEnv V} {id : Nat} {act act' : Act V} {m m' : Mem V}
    (h : Act.Step env id act m act' m') {a : Nat} {rest : List Nat} (hpc : act.pc = .scan (a :: rest)) :
    ((m.heap a).exp.common.mpoison = true ∧ act' = act.goto (.done (.error .poisoned)) ∧ m' = m) ∨
    ((m.heap a).exp.common.mpoison = false ∧ act' = act.goto (.matching a rest)) := by
  cases h <;> simp_all

theorem Act.Step.of_matching {env : CEnv V} {id : Nat} {act act' : Act V} {m m' : Mem V}
    (h : Act.Step env id act m act' m') {a : Nat} {rest : List Nat} (hpc : act.pc = .matching a rest) :
    (∃ p, (m.heap a).exp.common.matcher.matches act.tid act.args = .error p ∧
      act' = act.goto (.done (.error p))) ∨
    ((m.heap a).exp.common.matcher.matches act.tid act.args = .ok false ∧
      act' = act.goto (.scan rest)) ∨
    ((m.heap a).exp.common.matcher.matches act.tid act.args = .ok true ∧
      act' = act.goto (.check a rest)) := by
  cases h <;> simp_all

theorem Act.Step.of_check {env : CEnv V} {id : Nat} {act act' : Act V} {m m' : Mem V}
    (h : Act.Step env id act m act' m') {a : Nat} {rest : List Nat} (hpc : act.pc = .check a rest) :
    (∃ p, (m.heap a).exp.isDone = .error p) ∨
    ((m.heap a).exp.isDone = .ok true ∧ act' = act.goto (.scan rest)) ∨
    (((m.heap a).exp.isDone = .ok false ∨ (env.vec act.meth).length = 1) ∧
      act' = { act with via := some a, pc := .inc a }) := by
  cases h <;> simp_all

theorem Act.Step.of_inc {env : CEnv V} {id : Nat} {act act' : Act V} {m m' : Mem V}
    (h : Act.Step env id act m act' m') {a : Nat} (hpc : act.pc = .inc a) :
    m' = m.put a (m.heap a).bump ∧
    ((∃ p, (m.heap a).exp.common.times.call.1 = .error p ∧ act' = act.goto (.done (.error p))) ∨
    (∃ e, (m.heap a).exp.common.times.call.1 = .ok (.error e) ∧ act' = act.goto (.callFail a e)) ∨
    ((m.heap a).exp.common.times.call.1 = .ok (.ok ()) ∧
      act' = { act with passed := true, pc := .verify a })) := by
  cases h <;> simp_all

theorem Act.Step.of_verify {env : CEnv V} {id : Nat} {act act' : Act V} {m m' : Mem V}
    (h : Act.Step env id act m act' m') {a : Nat} (hpc : act.pc = .verify a) :
    m' = m ∧
    ((∃ p, (m.heap a).exp.common.verifySequence m.seqs
        (callDesc (env.cx act) (env.info act.meth) act.args) = .error p ∧
        act' = act.goto (.done (.error p))) ∨
     ((m.heap a).exp.common.verifySequence m.seqs
        (callDesc (env.cx act) (env.info act.meth) act.args) = .ok () ∧
        act' = act.goto (.loadLow a))) := by
  cases h <;> simp_all

theorem Act.Step.of_satisfy {env : CEnv V} {id : Nat} {act act' : Act V} {m m' : Mem V}
    (h : Act.Step env id act m act' m') {a : Nat} (hpc : act.pc = .satisfy a) :
    m' = { m with seqs := ((m.heap a).exp.common.satisfySequence m.seqs).2 } ∧
    ((∃ p, ((m.heap a).exp.common.satisfySequence m.seqs).1 = .error p ∧
        act' = act.goto (.done (.error p))) ∨
     (((m.heap a).exp.common.satisfySequence m.seqs).1 = .ok () ∧ act' = act.goto (.ret a))) := by
  cases h <;> simp_all

/-- Once dispatched and counted, a call stays with its expectation. -/
theorem Act.Step.keep {env : CEnv V} {id : Nat} {act act' : Act V} {m m' : Mem V}
    (h : Act.Step env id act m act' m') (hc : act.Coh) (hp : act.passed = true) :
    act'.passed = true ∧ act'.via = act.via := by
  cases h <;> simp_all [Act.goto, Act.Coh]

/-- Once dispatched, a call stays with its expectation. -/
theorem Act.Step.keepVia {env : CEnv V} {id : Nat} {act act' : Act V} {m m' : Mem V}
    (h : Act.Step env id act m act' m') (hc : act.Coh) {a : Nat} (hv : act.via = some a) :
    act'.via = some a := by
  cases h <;> simp_all [Act.goto, Act.Coh]

/-- Only the level of a sequence is changed by calls, and only by `satisfy`. -/
theorem Act.Step.seqs {env : CEnv V} {id : Nat} {act act' : Act V} {m m' : Mem V}
    (h : Act.Step env id act m act' m') :
    m'.seqs = m.seqs ∨ ∃ a, act.pc = .satisfy a ∧
      m'.seqs = ((m.heap a).exp.common.satisfySequence m.seqs).2 := by
  cases h <;> simp_all

end Mockall
