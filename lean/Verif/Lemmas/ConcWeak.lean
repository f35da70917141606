import Verif.Conc.Weak
import Verif.Lemmas.ConcMore

/-! # Invariants of executions with relaxed atomics -/

set_option linter.unusedSimpArgs false

namespace Mockall

variable {V : Type}

/-! ## What a pretended memory shares with the real one -/

theorem Mem.pretend_cell (m : Mem V) (l : Loc) (v b : Nat) :
    ((m.pretend l v).heap b).Same (m.heap b) ∧
    ((m.pretend l v).heap b).mheld = (m.heap b).mheld ∧
    ((m.pretend l v).heap b).rheld = (m.heap b).rheld ∧
    ((m.pretend l v).heap b).exp.ret = (m.heap b).exp.ret ∧
    ((m.pretend l v).heap b).exp.common.mpoison = (m.heap b).exp.common.mpoison := by
  cases l with
  | cnt a =>
    simp only [Mem.pretend, Mem.put_heap]
    split
    next h => subst h; exact ⟨⟨rfl, rfl, rfl⟩, rfl, rfl, rfl, rfl⟩
    next => exact ⟨.refl _, rfl, rfl, rfl, rfl⟩
  | lvl sid => exact ⟨.refl _, rfl, rfl, rfl, rfl⟩

theorem Mem.pretend_runs (m : Mem V) (l : Loc) (v : Nat) : (m.pretend l v).runs = m.runs := by
  cases l <;> rfl

theorem Mem.pretend_get (m : Mem V) (l k : Loc) (v : Nat) :
    (m.pretend l v).get k = if k = l then v else m.get k := by
  cases l with
  | cnt a =>
    cases k with
    | cnt b =>
      simp only [Mem.pretend, Mem.get, Mem.put_heap, Loc.cnt.injEq]
      split <;> rfl
    | lvl sid => simp [Mem.pretend, Mem.get]
  | lvl sid =>
    cases k with
    | cnt b => simp [Mem.pretend, Mem.get]
    | lvl s =>
      simp only [Mem.pretend, Mem.get, Seqs.set, Loc.lvl.injEq]
      split <;> rfl

/-! ## Steps and locations -/

/-- A load leaves the memory alone. -/
theorem Act.Step.load_mem {env : CEnv V} {id : Nat} {act act' : Act V} {m m' : Mem V}
    (h : Act.Step env id act m act' m') {n : Mem V} {l : Loc} (hr : act.pc.reads n = some l) :
    m' = m := by
  cases h <;> simp_all [Pc.reads]

/-- A load is made holding no lock, before and after. -/
theorem Act.Step.load_pc {env : CEnv V} {id : Nat} {act act' : Act V} {m m' : Mem V}
    (h : Act.Step env id act m act' m') {n : Mem V} {l : Loc} (hr : act.pc.reads n = some l) :
    act.pc.holdsM = none ∧ act.pc.holdsR = none ∧ act'.pc.holdsM = none ∧ act'.pc.holdsR = none ∧
      act'.passed = act.passed ∧ (∀ a, act.pc ≠ .inc a) ∧ (∀ r, act'.pc ≠ .done (.ok r)) := by
  cases h <;> simp_all [Pc.reads, Pc.holdsM, Pc.holdsR, Act.goto]

/-- The outcomes of a load. -/
theorem Act.Step.load_cases {env : CEnv V} {id : Nat} {act act' : Act V} {m m' : Mem V}
    (h : Act.Step env id act m act' m') {n : Mem V} {l : Loc} (hr : act.pc.reads n = some l) :
    (∃ a rest, act.pc = .check a rest ∧ ((∃ p, act' = act.goto (.done (.error p))) ∨
      act' = act.goto (.scan rest) ∨ act' = { act with via := some a, pc := .inc a })) ∨
    (∃ a, act.pc = .verify a ∧ ((∃ p, act' = act.goto (.done (.error p))) ∨
      act' = act.goto (.loadLow a))) ∨
    (∃ a, act.pc = .loadLow a ∧ act' = act.goto (.loadHigh a
      (decide ((m.heap a).count ≥ (m.heap a).exp.common.times.range.start)))) ∨
    (∃ a, act.pc = .loadHigh a false ∧ act' = act.goto (.ret a)) ∨
    (∃ a, act.pc = .loadHigh a true ∧ act' = act.goto (.satisfy a)) := by
  cases h
  case checkPanic a rest p hpc hd => exact .inl ⟨a, rest, hpc, .inl ⟨p, rfl⟩⟩
  case checkSkip a rest hpc hd hn => exact .inl ⟨a, rest, hpc, .inr (.inl rfl)⟩
  case checkTake a rest b hpc hd hn => exact .inl ⟨a, rest, hpc, .inr (.inr rfl)⟩
  case verifyFail a p hpc hv => exact .inr (.inl ⟨a, hpc, .inl ⟨p, rfl⟩⟩)
  case verifyOk a hpc hv => exact .inr (.inl ⟨a, hpc, .inr rfl⟩)
  case loadLow a hpc => exact .inr (.inr (.inl ⟨a, hpc, rfl⟩))
  case highFew a hpc => exact .inr (.inr (.inr (.inl ⟨a, hpc, rfl⟩)))
  case highEnough a hpc => exact .inr (.inr (.inr (.inr ⟨a, hpc, rfl⟩)))
  all_goals simp_all [Pc.reads]

/-- Which variables a step changes, and how. -/
theorem Act.Step.get {env : CEnv V} {id : Nat} {act act' : Act V} {m m' : Mem V}
    (h : Act.Step env id act m act' m') (l : Loc) :
    (act.pc.writes m = some l ∧ ∃ n, m'.get l = n ∧
      (∀ a, l = .cnt a → act.pc = .inc a ∧ n = atomicInc (m.get l)) ∧
      (∀ sid, l = .lvl sid → n = m.get l + 1)) ∨
    (act.pc.writes m ≠ some l ∧ m'.get l = m.get l) := by
  cases l with
  | cnt b =>
    cases h
    case incPanic a p hpc hc =>
      by_cases hb : b = a
      · subst hb; left; refine ⟨by simp [hpc, Pc.writes], _, rfl, ?_, by simp⟩
        intro a ha; cases ha; simp [hpc, Mem.get, Cell.bump, Cell.count]
      · right; refine ⟨by simp [hpc, Pc.writes]; exact fun h => hb h.symm, by simp [Mem.get, hb]⟩
    case incFail a p hpc hc =>
      by_cases hb : b = a
      · subst hb; left; refine ⟨by simp [hpc, Pc.writes], _, rfl, ?_, by simp⟩
        intro a ha; cases ha; simp [hpc, Mem.get, Cell.bump, Cell.count]
      · right; refine ⟨by simp [hpc, Pc.writes]; exact fun h => hb h.symm, by simp [Mem.get, hb]⟩
    case incOk a hpc hc =>
      by_cases hb : b = a
      · subst hb; left; refine ⟨by simp [hpc, Pc.writes], _, rfl, ?_, by simp⟩
        intro a ha; cases ha; simp [hpc, Mem.get, Cell.bump, Cell.count]
      · right; refine ⟨by simp [hpc, Pc.writes]; exact fun h => hb h.symm, by simp [Mem.get, hb]⟩
    case refMut a r o hpc hr ho =>
      right
      refine ⟨by simp [hpc, Pc.writes], ?_⟩
      simp only [Mem.get, Mem.put_heap]
      split
      next hb => subst hb; subst ho; simp only [Cell.count, ret_call_common]
      next => rfl
    all_goals
      right
      refine ⟨by simp_all [Pc.writes], ?_⟩
      simp only [Mem.get, Mem.put_heap]
      try split
      all_goals first
        | rfl
        | (subst_vars; rfl)
  | lvl sid =>
    have sat : ∀ a, act.pc = .satisfy a → m'.get (.lvl sid) =
        (((m.heap a).exp.common.satisfySequence m.seqs).2 sid).level →
        (act.pc.writes m = some (.lvl sid) ∧ ∃ n, m'.get (.lvl sid) = n ∧
          (∀ a, Loc.lvl sid = .cnt a → act.pc = .inc a ∧ n = atomicInc (m.get (.lvl sid))) ∧
          (∀ s, Loc.lvl sid = .lvl s → n = m.get (.lvl sid) + 1)) ∨
        (act.pc.writes m ≠ some (.lvl sid) ∧ m'.get (.lvl sid) = m.get (.lvl sid)) := by
      intro a hpc hm
      cases hh : (m.heap a).exp.common.seqHandle with
      | none =>
        right
        refine ⟨by simp [hpc, Pc.writes, hh], ?_⟩
        rw [hm]; simp [Common.satisfySequence, hh, Mem.get]
      | some hd =>
        by_cases hs : hd.sid = sid
        · left
          refine ⟨by simp [hpc, Pc.writes, hh, hs], _, rfl, by simp, ?_⟩
          intro s hs'; cases hs'
          rw [hm]
          simp only [Common.satisfySequence, hh, Seqs.satisfy, hs, Mem.get]
          split <;> simp [Seqs.set]
        · right
          refine ⟨by simp [hpc, Pc.writes, hh, hs], ?_⟩
          rw [hm]
          have hs' : ¬ sid = hd.sid := fun he => hs he.symm
          simp only [Common.satisfySequence, hh, Seqs.satisfy, Mem.get]
          split <;> simp [Seqs.set, hs']
    cases h
    case satFail a p hpc hs => exact sat a hpc rfl
    case satOk a hpc hs => exact sat a hpc rfl
    all_goals
      right
      refine ⟨by simp_all [Pc.writes], rfl⟩

/-! ## All executions -/

/-- The state after call `id` made a step (`act` to `act'`) that is not a load. -/
def WState.moved (s : WState V) (id : Nat) (act act' : Act V) (m' : Mem V) : WState V :=
  match act.pc.writes s.cs.mem with
  | none => s.move id act' m'
  | some l => (s.move id act' m').push act.tid l (m'.get l)

/-- The state after thread `u` synchronised with thread `v`. -/
def WState.synced (s : WState V) (u v : Nat) : WState V :=
  { s with view := fun t l => if t = v then max (s.view v l) (s.view u l) else s.view t l }

theorem WState.moved_cs (s : WState V) (id : Nat) (act act' : Act V) (m' : Mem V) :
    (s.moved id act act' m').cs = ⟨m', s.cs.acts.set id act'⟩ := by
  unfold WState.moved; split <;> rfl

/-- Reasoning about all schedules. -/
theorem WState.run_induct {env : CEnv V} {P : WState V → Prop} {s : WState V} (h0 : P s)
    (hstart : ∀ (t : WState V) meth tid args, P t →
      (∀ a ∈ t.cs.acts, a.finished = true ∨ a.tid ≠ tid) →
      P { t with cs := { t.cs with acts := t.cs.acts ++ [Act.start env meth tid args] } })
    (hstep : ∀ (t : WState V) id act act' m', P t → t.cs.acts[id]? = some act →
      act.pc.reads t.cs.mem = none → Act.Step env id act t.cs.mem act' m' →
      P (t.moved id act act' m'))
    (hload : ∀ (t : WState V) id act act' l i v, P t → t.cs.acts[id]? = some act →
      act.pc.reads t.cs.mem = some l → (t.hist l)[i]? = some v → t.view act.tid l ≤ i →
      Act.Step env id act (t.cs.mem.pretend l v) act' (t.cs.mem.pretend l v) →
      P ((t.move id act' t.cs.mem).learn act.tid l i))
    (hsync : ∀ (t : WState V) u v, P t → P (t.synced u v))
    (sch : List (WSched V)) : P (s.run env sch) := by
  induction sch generalizing s with
  | nil => exact h0
  | cons x xs ih =>
    refine ih (s := s.step env x) ?_
    cases x with
    | start meth tid args =>
      simp only [WState.step, CState.step]
      split
      next hfree =>
        refine hstart s meth tid args h0 ?_
        intro a ha
        have := List.all_eq_true.mp hfree a ha
        simpa using this
      next => exact h0
    | step id =>
      simp only [WState.step]
      split
      · exact h0
      next act hact =>
        split
        next r hr hst =>
          have := hstep s id act r.1 r.2 h0 hact hr (Act.step_rel hst)
          unfold WState.moved at this
          split
          next hw => rw [hw] at this; exact this
          next l hw => rw [hw] at this; exact this
        · exact h0
    | load id i =>
      simp only [WState.step]
      split
      · exact h0
      next act hact =>
        split
        · exact h0
        next l hl =>
          split
          · exact h0
          next v hv =>
            split
            next hle =>
              split
              · exact h0
              next r hst =>
                have h1 := Act.step_rel (act' := r.1) (m' := r.2) hst
                have h2 := h1.load_mem hl
                rw [h2] at h1
                exact hload s id act r.1 l i v h0 hact hl hv hle h1
            next => exact h0
    | sync u v => exact hsync s u v h0

theorem WState.run_append (env : CEnv V) (a b : List (WSched V)) (s : WState V) :
    s.run env (a ++ b) = (s.run env a).run env b := by
  simp [WState.run, List.foldl_append]

/-! ## The invariant -/

theorem Locks.load {env : CEnv V} {s : CState V} {id : Nat} {act act' : Act V} {m : Mem V} {l : Loc}
    (h : Locks s) (hact : s.acts[id]? = some act) (hr : act.pc.reads s.mem = some l)
    (hs : Act.Step env id act m act' m) : Locks { s with acts := s.acts.set id act' } := by
  obtain ⟨a1, a2, a3, a4, _⟩ := hs.load_pc hr
  constructor
  · intro a c
    rw [h.m]
    simp only [acts_set hact]
    by_cases hc : c = id
    · subst hc; simp [hact, a1, a3]
    · simp [hc]
  · intro a c
    rw [h.r]
    simp only [acts_set hact]
    by_cases hc : c = id
    · subst hc; simp [hact, a2, a4]
    · simp [hc]

theorem CInv.load {env : CEnv V} {m0 : Mem V} {s : CState V} (h : CInv m0 s) {id : Nat}
    {act act' : Act V} {m : Mem V} {l : Loc} (hact : s.acts[id]? = some act)
    (hr : act.pc.reads s.mem = some l) (hs : Act.Step env id act m act' m) :
    CInv m0 { s with acts := s.acts.set id act' } := by
  have hcoh := h.coh id act hact
  have hcnt : ∀ a, act'.counted a = act.counted a ∧ act'.passedAt a = act.passedAt a := by
    intro a
    rcases hs.count hcoh a with ⟨_, e⟩ | ⟨_, hpc, _⟩
    · exact e
    · exact absurd hpc ((hs.load_pc hr).2.2.2.2.2.1 a)
  have hc : ∀ a, (s.acts.set id act').countP (Act.counted a) = s.acts.countP (Act.counted a) := by
    intro a
    have := countP_set (Act.counted a) s.acts id act act' hact
    rw [(hcnt a).1] at this; omega
  have hp : ∀ a, (s.acts.set id act').countP (Act.passedAt a) = s.acts.countP (Act.passedAt a) := by
    intro a
    have := countP_set (Act.passedAt a) s.acts id act act' hact
    rw [(hcnt a).2] at this; omega
  refine ⟨h.same, ?_, h.locks.load hact hr hs, ?_, ?_⟩
  · intro c x hx
    simp only [acts_set hact] at hx
    split at hx
    · cases hx; exact hs.coh hcoh
    · exact h.coh c x hx
  · intro a; simp only; rw [hc]; exact h.count a
  · intro a; simp only; rw [hc, hp]; exact h.passed a

/-- The invariant of executions with relaxed atomics. -/
structure WInv (m0 : Mem V) (s : WState V) : Prop where
  /-- the invariant of `Conc/Call.lean` -/
  base : CInv m0 s.cs
  /-- threads know of values that exist -/
  bound : ∀ t l, s.view t l < (s.hist l).length
  /-- the memory holds the latest values -/
  last : ∀ l, (s.hist l)[(s.hist l).length - 1]? = some (s.cs.mem.get l)
  /-- counts go up by one, modulo 2^64 -/
  cnt : ∀ a i v, (s.hist (.cnt a))[i]? = some v → v = ((m0.heap a).count + i) % (usizeMax + 1)
  /-- levels go up by one -/
  lvl : ∀ sid i v, (s.hist (.lvl sid))[i]? = some v → v = (m0.seqs sid).level + i
  /-- one value for each counted call -/
  len : ∀ a, (s.hist (.cnt a)).length = s.cs.acts.countP (Act.counted a) + 1
  /-- a thread knows of the calls it has counted -/
  own : ∀ (c : Nat) (act : Act V) (a : Nat), s.cs.acts[c]? = some act → act.counted a = true →
    1 ≤ s.view act.tid (.cnt a)
  /-- the thread that wrote the latest value knows it -/
  top : ∀ l, (s.hist l).length = 1 ∨
    ∃ act ∈ s.cs.acts, (∀ a, l = .cnt a → act.counted a = true) ∧
      s.view act.tid l + 1 = (s.hist l).length

theorem WInv.init {m0 : Mem V} (h : m0.Quiet) : WInv m0 (WState.init m0) := by
  refine ⟨CInv.init h, ?_, ?_, ?_, ?_, ?_, ?_, ?_⟩
  · intro t l; simp [WState.init]
  · intro l; simp [WState.init]
  · intro a i v hv
    simp only [WState.init, List.getElem?_singleton, Mem.get] at hv
    split at hv
    next hi =>
      cases hv
      have := h.count a
      rw [hi, Nat.add_zero, Nat.mod_eq_of_lt (by omega)]
    · cases hv
  · intro a i v hv
    simp only [WState.init, List.getElem?_singleton, Mem.get] at hv
    split at hv
    next hi => cases hv; omega
    · cases hv
  · intro a; simp [WState.init]
  · simp [WState.init]
  · intro l; left; simp [WState.init]

theorem WInv.start {env : CEnv V} {m0 : Mem V} {s : WState V} (h : WInv m0 s) (meth tid : Nat)
    (args : List V) :
    WInv m0 { s with cs := { s.cs with acts := s.cs.acts ++ [Act.start env meth tid args] } } := by
  refine ⟨h.base.start meth tid args, h.bound, h.last, h.cnt, h.lvl, ?_, ?_, ?_⟩
  · intro a
    have := h.len a
    simp [List.countP_append, Act.start, Act.counted, this]
  · intro c act a hact hc
    simp only [acts_push] at hact
    split at hact
    · cases hact; simp [Act.start, Act.counted] at hc
    · exact h.own c act a hact hc
  · intro l
    refine (h.top l).imp (fun h => h) ?_
    rintro ⟨act, ha, h⟩
    exact ⟨act, by simp [ha], h⟩

theorem WInv.synced {m0 : Mem V} {s : WState V} (h : WInv m0 s) (u v : Nat) :
    WInv m0 (s.synced u v) := by
  have hle : ∀ t l, s.view t l ≤ (s.synced u v).view t l := by
    intro t l
    simp only [WState.synced]
    split
    next ht => subst ht; omega
    · omega
  have hlt : ∀ t l, (s.synced u v).view t l < (s.hist l).length := by
    intro t l
    have := h.bound u l
    have := h.bound v l
    have := h.bound t l
    simp only [WState.synced]
    split <;> omega
  refine ⟨h.base, hlt, h.last, h.cnt, h.lvl, h.len, ?_, ?_⟩
  · intro c act a hact hc
    exact Nat.le_trans (h.own c act a hact hc) (hle _ _)
  · intro l
    refine (h.top l).imp (fun h => h) ?_
    rintro ⟨act, ha, hcn, hh⟩
    refine ⟨act, ha, hcn, ?_⟩
    have := hle act.tid l
    have := hlt act.tid l
    show (s.synced u v).view act.tid l + 1 = (s.hist l).length
    omega

theorem WInv.load {env : CEnv V} {m0 : Mem V} {s : WState V} (h : WInv m0 s) {id i v : Nat}
    {act act' : Act V} {l : Loc} {m : Mem V} (hact : s.cs.acts[id]? = some act)
    (hr : act.pc.reads s.cs.mem = some l) (hv : (s.hist l)[i]? = some v)
    (hle : s.view act.tid l ≤ i) (hs : Act.Step env id act m act' m) :
    WInv m0 ((s.move id act' s.cs.mem).learn act.tid l i) := by
  have hcoh := h.base.coh id act hact
  have htid := hs.ident.2.1
  have hi : i < (s.hist l).length := by
    rcases Nat.lt_or_ge i (s.hist l).length with h' | h'
    · exact h'
    · rw [List.getElem?_eq_none h'] at hv; cases hv
  have hmono : ∀ t k, s.view t k ≤ ((s.move id act' s.cs.mem).learn act.tid l i).view t k := by
    intro t k
    simp only [WState.learn, WState.move]
    split
    next ht => obtain ⟨rfl, rfl⟩ := ht; exact hle
    · omega
  have hlt : ∀ t k, ((s.move id act' s.cs.mem).learn act.tid l i).view t k < (s.hist k).length := by
    intro t k
    have := h.bound t k
    simp only [WState.learn, WState.move]
    split
    next ht => obtain ⟨rfl, rfl⟩ := ht; exact hi
    · exact this
  have hcnt : ∀ a, act'.counted a = act.counted a := by
    intro a
    rcases hs.count hcoh a with ⟨_, e⟩ | ⟨_, hpc, _⟩
    · exact e.1
    · exact absurd hpc ((hs.load_pc hr).2.2.2.2.2.1 a)
  refine ⟨h.base.load hact hr hs, hlt, h.last, h.cnt, h.lvl, ?_, ?_, ?_⟩
  · intro a
    have := countP_set (Act.counted a) s.cs.acts id act act' hact
    rw [hcnt] at this
    have := h.len a
    show (s.hist (.cnt a)).length = (s.cs.acts.set id act').countP (Act.counted a) + 1
    omega
  · intro c x a hx hc
    have hx : (s.cs.acts.set id act')[c]? = some x := hx
    simp only [acts_set hact] at hx
    split at hx
    · cases hx
      rw [hcnt] at hc
      rw [htid]
      exact Nat.le_trans (h.own id act a hact hc) (hmono _ _)
    · exact Nat.le_trans (h.own c x a hx hc) (hmono _ _)
  · intro k
    refine (h.top k).imp (fun h => h) ?_
    rintro ⟨x, hx, hcn, hh⟩
    obtain ⟨c, hc⟩ := List.getElem?_of_mem hx
    have key : ∀ t, t = x.tid →
        ((s.move id act' s.cs.mem).learn act.tid l i).view t k + 1 = (s.hist k).length := by
      rintro t rfl
      have := hmono x.tid k
      have := hlt x.tid k
      omega
    by_cases hci : c = id
    · subst hci
      rw [hact] at hc; cases hc
      exact ⟨act', List.mem_of_getElem? (i := c) (by
        show (s.cs.acts.set c act')[c]? = _
        simp [acts_set hact]), fun a ha => by rw [hcnt]; exact hcn a ha, key _ htid⟩
    · exact ⟨x, List.mem_of_getElem? (i := c) (by
        show (s.cs.acts.set id act')[c]? = _
        simp [acts_set hact, hci, hc]), hcn, key _ rfl⟩

theorem WState.moved_view (s : WState V) (id : Nat) (act act' : Act V) (m' : Mem V) (t : Nat) (k : Loc) :
    (s.moved id act act' m').view t k =
      if act.pc.writes s.cs.mem = some k ∧ t = act.tid then (s.hist k).length else s.view t k := by
  unfold WState.moved
  split
  next h => simp [h, WState.move]
  next l h =>
    rw [h]
    simp only [WState.push, WState.learn, WState.move, Option.some.injEq]
    by_cases hk : k = l
    · subst hk; by_cases ht : t = act.tid <;> simp [ht]
    · have : ¬ l = k := fun he => hk he.symm
      simp [hk, this]

theorem WState.moved_hist (s : WState V) (id : Nat) (act act' : Act V) (m' : Mem V) (k : Loc) :
    (s.moved id act act' m').hist k =
      if act.pc.writes s.cs.mem = some k then s.hist k ++ [m'.get k] else s.hist k := by
  unfold WState.moved
  split
  next h => simp [h, WState.move]
  next l h =>
    rw [h]
    simp only [WState.push, WState.learn, WState.move, Option.some.injEq]
    by_cases hk : k = l
    · subst hk; simp
    · have : ¬ l = k := fun he => hk he.symm
      simp [hk, this]

theorem WInv.moved {env : CEnv V} {m0 : Mem V} {s : WState V} (h : WInv m0 s) {id : Nat}
    {act act' : Act V} {m' : Mem V} (hact : s.cs.acts[id]? = some act)
    (hs : Act.Step env id act s.cs.mem act' m') : WInv m0 (s.moved id act act' m') := by
  have hcoh := h.base.coh id act hact
  have htid := hs.ident.2.1
  have hmono : ∀ t k, s.view t k ≤ (s.moved id act act' m').view t k := by
    intro t k
    have := h.bound t k
    rw [s.moved_view]
    split <;> omega
  have hlt : ∀ t k, (s.moved id act act' m').view t k < ((s.moved id act act' m').hist k).length := by
    intro t k
    have := h.bound t k
    rw [s.moved_view, s.moved_hist]
    by_cases hw : act.pc.writes s.cs.mem = some k
    · by_cases ht : t = act.tid
      · simp [hw, ht]
      · simp [hw, ht]; omega
    · simp [hw]; exact this
  -- entries of the history
  have hentry : ∀ k i v, ((s.moved id act act' m').hist k)[i]? = some v →
      (s.hist k)[i]? = some v ∨
        (act.pc.writes s.cs.mem = some k ∧ i = (s.hist k).length ∧ v = m'.get k) := by
    intro k i v hv
    rw [s.moved_hist] at hv
    split at hv
    next hw =>
      rcases Nat.lt_trichotomy i (s.hist k).length with hi | hi | hi
      · left; rwa [List.getElem?_append_left hi] at hv
      · right; subst hi; simp at hv; exact ⟨hw, rfl, hv.symm⟩
      · rw [List.getElem?_eq_none (by simp; omega)] at hv; cases hv
    next => exact .inl hv
  have hpos : ∀ k, 1 ≤ (s.hist k).length := fun k => by have := h.bound 0 k; omega
  have hcs := s.moved_cs id act act' m'
  refine ⟨?_, hlt, ?_, ?_, ?_, ?_, ?_, ?_⟩
  · rw [hcs]; exact h.base.step hact hs
  · intro k
    rw [hcs, s.moved_hist]
    rcases hs.get k with ⟨hw, _⟩ | ⟨hw, hg⟩
    · simp [hw]
    · simp only [hw, if_false, hg]; exact h.last k
  · intro a i v hv
    rcases hentry _ i v hv with hv | ⟨hw, hi, hv⟩
    · exact h.cnt a i v hv
    · have hl := h.last (.cnt a)
      have hl := h.cnt a _ _ hl
      rcases hs.get (.cnt a) with ⟨_, n, hn, hn', _⟩ | ⟨hw', _⟩
      · rw [hv, hn, (hn' a rfl).2, hl, atomicInc_mod _ (by
          have := Nat.mod_lt ((m0.heap a).count + ((s.hist (.cnt a)).length - 1))
            (show 0 < usizeMax + 1 by omega)
          omega), Nat.mod_add_mod, hi]
        have := hpos (.cnt a)
        congr 1; omega
      · exact absurd hw hw'
  · intro a i v hv
    rcases hentry _ i v hv with hv | ⟨hw, hi, hv⟩
    · exact h.lvl a i v hv
    · have hl := h.last (.lvl a)
      have hl := h.lvl a _ _ hl
      rcases hs.get (.lvl a) with ⟨_, n, hn, _, hn'⟩ | ⟨hw', _⟩
      · have := hpos (.lvl a)
        have := hn' a rfl
        omega
      · exact absurd hw hw'
  · intro a
    have hset := countP_set (Act.counted a) s.cs.acts id act act' hact
    have hl := h.len a
    rw [s.moved_hist, hcs]
    show _ = (s.cs.acts.set id act').countP (Act.counted a) + 1
    rcases hs.count hcoh a with ⟨e1, e2, _⟩ | ⟨_, hpc, e1, e2, _⟩
    · rw [e2] at hset
      have hw : ¬ act.pc.writes s.cs.mem = some (.cnt a) := by
        intro hw
        have hpc : act.pc = .inc a := by
          cases hpc : act.pc <;> simp [hpc, Pc.writes] at hw
          rw [hw]
        have hc1 : act.counted a = false := by simp [Act.counted, hpc]
        have hc2 : act'.counted a = true := by
          simp only [Act.Coh, hpc] at hcoh
          rcases (hs.of_inc hpc).2 with ⟨p, _, ha⟩ | ⟨e, _, ha⟩ | ⟨_, ha⟩ <;>
            simp [ha, Act.counted, Act.goto, hcoh.1]
        rw [hc1, hc2] at e2; cases e2
      simp only [hw, if_false]
      omega
    · rw [e1, e2] at hset
      have hw : act.pc.writes s.cs.mem = some (.cnt a) := by simp [hpc, Pc.writes]
      simp only [hw, if_true, List.length_append, List.length_cons, List.length_nil]
      simp at hset
      omega
  · intro c x a hx hc
    rw [hcs] at hx
    simp only [acts_set hact] at hx
    split at hx
    · cases hx
      rw [htid]
      rcases hs.count hcoh a with ⟨_, e, _⟩ | ⟨_, hpc, _⟩
      · rw [e] at hc
        exact Nat.le_trans (h.own id act a hact hc) (hmono _ _)
      · rw [s.moved_view]
        simp only [hpc, Pc.writes, and_self, if_true]
        exact hpos _
    · exact Nat.le_trans (h.own c x a hx hc) (hmono _ _)
  · intro k
    have hmem' : act' ∈ (s.moved id act act' m').cs.acts := by
      rw [hcs]
      exact List.mem_of_getElem? (i := id) (by simp [acts_set hact])
    by_cases hw : act.pc.writes s.cs.mem = some k
    · right
      refine ⟨act', hmem', ?_, ?_⟩
      · rintro a rfl
        have hpc : act.pc = .inc a := by
          cases hpc : act.pc <;> simp [hpc, Pc.writes] at hw
          rw [hw]
        simp only [Act.Coh, hpc] at hcoh
        rcases (hs.of_inc hpc).2 with ⟨p, _, ha⟩ | ⟨e, _, ha⟩ | ⟨_, ha⟩ <;>
          simp [ha, Act.counted, Act.goto, hcoh.1]
      · rw [s.moved_view, s.moved_hist, htid]
        simp [hw]
    · rw [s.moved_hist]
      simp only [hw, if_false]
      refine (h.top k).imp (fun h => h) ?_
      rintro ⟨x, hx, hcn, hh⟩
      obtain ⟨c, hc⟩ := List.getElem?_of_mem hx
      have hv : ∀ t, (s.moved id act act' m').view t k = s.view t k := by
        intro t; rw [s.moved_view]; simp [hw]
      by_cases hci : c = id
      · subst hci
        rw [hact] at hc; cases hc
        refine ⟨act', hmem', ?_, by rw [hv, htid]; exact hh⟩
        intro a ha
        rcases hs.count hcoh a with ⟨_, e, _⟩ | ⟨_, _, _, e, _⟩
        · rw [e]; exact hcn a ha
        · exact e
      · refine ⟨x, ?_, hcn, by rw [hv]; exact hh⟩
        rw [hcs]
        exact List.mem_of_getElem? (i := c) (by simp [acts_set hact, hci, hc])

theorem winv_run (env : CEnv V) {m0 : Mem V} (h : m0.Quiet) (sch : List (WSched V)) :
    WInv m0 ((WState.init m0).run env sch) :=
  WState.run_induct (WInv.init h) (fun _ meth tid args hi _ => hi.start meth tid args)
    (fun _ _ _ _ _ hi hact _ hs => hi.moved hact hs)
    (fun _ _ _ _ _ _ _ hi hact hr hv hle hs => hi.load hact hr hv hle hs)
    (fun _ u v hi => hi.synced u v) sch

end Mockall
