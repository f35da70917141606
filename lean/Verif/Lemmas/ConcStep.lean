import Verif.Conc.Call

/-! # The steps of a concurrent call as a relation -/

namespace Mockall

variable {V : Type}

/-- The cell after its count was incremented. -/
def Cell.bump (c : Cell V) : Cell V :=
  { c with exp := { c.exp with common := { c.exp.common with times :=
    { c.exp.common.times with count := atomicInc c.count } } } }

/-- The cell with its matcher's lock held by `h`. -/
def Cell.mlock (c : Cell V) (h : Option Nat) : Cell V := { c with mheld := h }

/-- The cell with its return function's lock held by `h`. -/
def Cell.rlock (c : Cell V) (h : Option Nat) : Cell V := { c with rheld := h }

/-- The cell with a poisoned matcher. -/
def Cell.mpoisoned (c : Cell V) : Cell V :=
  { c with exp := { c.exp with common := { c.exp.common with mpoison := true } } }

/-- The cell with another return function. -/
def Cell.setRet (c : Cell V) (r : Ret V) : Cell V := { c with exp := { c.exp with ret := r } }

/-- The panic raised when a message about an expectation has to be printed. -/
def Cell.say (c : Cell V) (p : Panic) : Panic := if c.exp.common.mpoison then .poisoned else p

/-- `act` goes on to `pc`. -/
def Act.goto (act : Act V) (pc : Pc V) : Act V := { act with pc := pc }

/-- `Act.step` as a relation, one constructor per outcome. -/
inductive Act.Step (env : CEnv V) (id : Nat) (act : Act V) (m : Mem V) : Act V → Mem V → Prop
  | nomatch (h : act.pc = .scan []) :
    Act.Step env id act m
      (act.goto (.done (.error (.noMatch (callDesc (env.cx act) (env.info act.meth) act.args))))) m
  | lockPoisoned {a rest} (h : act.pc = .scan (a :: rest)) (free : (m.heap a).mheld = none)
      (hp : (m.heap a).exp.common.mpoison = true) :
    Act.Step env id act m (act.goto (.done (.error .poisoned))) m
  | lock {a rest} (h : act.pc = .scan (a :: rest)) (free : (m.heap a).mheld = none)
      (hp : (m.heap a).exp.common.mpoison = false) :
    Act.Step env id act m (act.goto (.matching a rest)) (m.put a ((m.heap a).mlock (some id)))
  | matchPanic {a rest p} (h : act.pc = .matching a rest)
      (hm : (m.heap a).exp.common.matcher.matches act.tid act.args = .error p) :
    Act.Step env id act m (act.goto (.done (.error p)))
      (m.put a ((m.heap a).mpoisoned.mlock none))
  | matchNo {a rest} (h : act.pc = .matching a rest)
      (hm : (m.heap a).exp.common.matcher.matches act.tid act.args = .ok false) :
    Act.Step env id act m (act.goto (.scan rest)) (m.put a ((m.heap a).mlock none))
  | matchYes {a rest} (h : act.pc = .matching a rest)
      (hm : (m.heap a).exp.common.matcher.matches act.tid act.args = .ok true) :
    Act.Step env id act m (act.goto (.check a rest)) (m.put a ((m.heap a).mlock none))
  | checkPanic {a rest p} (h : act.pc = .check a rest) (hd : (m.heap a).exp.isDone = .error p) :
    Act.Step env id act m (act.goto (.done (.error p))) m
  | checkSkip {a rest} (h : act.pc = .check a rest) (hd : (m.heap a).exp.isDone = .ok true)
      (hn : (env.vec act.meth).length ≠ 1) :
    Act.Step env id act m (act.goto (.scan rest)) m
  | checkTake {a rest b} (h : act.pc = .check a rest) (hd : (m.heap a).exp.isDone = .ok b)
      (hn : b = false ∨ (env.vec act.meth).length = 1) :
    Act.Step env id act m { act with via := some a, pc := .inc a } m
  | incPanic {a p} (h : act.pc = .inc a) (hc : (m.heap a).exp.common.times.call.1 = .error p) :
    Act.Step env id act m (act.goto (.done (.error p))) (m.put a (m.heap a).bump)
  | incFail {a e} (h : act.pc = .inc a) (hc : (m.heap a).exp.common.times.call.1 = .ok (.error e)) :
    Act.Step env id act m (act.goto (.callFail a e)) (m.put a (m.heap a).bump)
  | incOk {a} (h : act.pc = .inc a) (hc : (m.heap a).exp.common.times.call.1 = .ok (.ok ())) :
    Act.Step env id act m { act with passed := true, pc := .verify a } (m.put a (m.heap a).bump)
  | callFail {a e} (h : act.pc = .callFail a e) (free : (m.heap a).mheld = none) :
    Act.Step env id act m
      (act.goto (.done (.error ((m.heap a).say
        (.call (env.info act.meth).funcname (m.heap a).exp.common.matcher.display e))))) m
  | verifyFail {a p} (h : act.pc = .verify a)
      (hv : (m.heap a).exp.common.verifySequence m.seqs
        (callDesc (env.cx act) (env.info act.meth) act.args) = .error p) :
    Act.Step env id act m (act.goto (.done (.error p))) m
  | verifyOk {a} (h : act.pc = .verify a)
      (hv : (m.heap a).exp.common.verifySequence m.seqs
        (callDesc (env.cx act) (env.info act.meth) act.args) = .ok ()) :
    Act.Step env id act m (act.goto (.loadLow a)) m
  | loadLow {a} (h : act.pc = .loadLow a) :
    Act.Step env id act m
      (act.goto (.loadHigh a
        (decide ((m.heap a).count ≥ (m.heap a).exp.common.times.range.start)))) m
  | highFew {a} (h : act.pc = .loadHigh a false) : Act.Step env id act m (act.goto (.ret a)) m
  | highEnough {a} (h : act.pc = .loadHigh a true) : Act.Step env id act m (act.goto (.satisfy a)) m
  | satFail {a p} (h : act.pc = .satisfy a)
      (hs : ((m.heap a).exp.common.satisfySequence m.seqs).1 = .error p) :
    Act.Step env id act m (act.goto (.done (.error p)))
      { m with seqs := ((m.heap a).exp.common.satisfySequence m.seqs).2 }
  | satOk {a} (h : act.pc = .satisfy a)
      (hs : ((m.heap a).exp.common.satisfySequence m.seqs).1 = .ok ()) :
    Act.Step env id act m (act.goto (.ret a))
      { m with seqs := ((m.heap a).exp.common.satisfySequence m.seqs).2 }
  | refOk {a r v} (h : act.pc = .ret a) (hr : (m.heap a).exp.ret = .ref r)
      (hv : r.call env.nightly = .ok v) :
    Act.Step env id act m (act.goto (.done (.ok v))) m
  | refErr {a r e} (h : act.pc = .ret a) (hr : (m.heap a).exp.ret = .ref r)
      (hv : r.call env.nightly = .error e) :
    Act.Step env id act m (act.goto (.refFail a e)) m
  | retPoisoned {a r} (h : act.pc = .ret a) (hr : (m.heap a).exp.ret = .static r true)
      (free : (m.heap a).rheld = none) :
    Act.Step env id act m (act.goto (.done (.error .poisoned))) m
  | retLock {a r} (h : act.pc = .ret a) (hr : (m.heap a).exp.ret = .static r false)
      (free : (m.heap a).rheld = none) :
    Act.Step env id act m (act.goto (.run a)) (m.put a ((m.heap a).rlock (some id)))
  | refMut {a r o} (h : act.pc = .ret a) (hr : (m.heap a).exp.ret = .refMut r)
      (ho : o = (m.heap a).exp.ret_call (env.cx act) (env.info act.meth) act.args
        ⟨m.seqs, 0, [], [], m.runs⟩) :
    Act.Step env id act m (act.goto (.done o.1))
      { m.put a { m.heap a with exp := o.2.1 } with runs := o.2.2.runs }
  | runOk {a r poison o v} (h : act.pc = .run a) (hr : (m.heap a).exp.ret = .static r poison)
      (ho : o = r.callMut env.nightly (env.info act.meth).default act.tid act.args)
      (hv : o.out = .ok (.ok v)) :
    Act.Step env id act m (act.goto (.done (.ok v)))
      { m.put a (((m.heap a).setRet (.static o.next poison)).rlock none) with
        runs := m.runs ++ runEntry (env.cx act) act.args o.ran }
  | runErr {a r poison o e} (h : act.pc = .run a) (hr : (m.heap a).exp.ret = .static r poison)
      (ho : o = r.callMut env.nightly (env.info act.meth).default act.tid act.args)
      (hv : o.out = .ok (.error e)) :
    Act.Step env id act m (act.goto (.runFail a e))
      { m.put a ((m.heap a).setRet (.static o.next poison)) with
        runs := m.runs ++ runEntry (env.cx act) act.args o.ran }
  | runPanic {a r poison o p} (h : act.pc = .run a) (hr : (m.heap a).exp.ret = .static r poison)
      (ho : o = r.callMut env.nightly (env.info act.meth).default act.tid act.args)
      (hv : o.out = .error p) :
    Act.Step env id act m (act.goto (.done (.error p)))
      { m.put a (((m.heap a).setRet (.static o.next true)).rlock none) with
        runs := m.runs ++ runEntry (env.cx act) act.args o.ran }
  | runFail {a e r poison} (h : act.pc = .runFail a e) (hr : (m.heap a).exp.ret = .static r poison)
      (free : (m.heap a).mheld = none) :
    Act.Step env id act m
      (act.goto (.done (.error ((m.heap a).say
        (.ret (env.info act.meth).funcname (m.heap a).exp.common.matcher.display e)))))
      (m.put a (((m.heap a).setRet (.static r true)).rlock none))
  | refFail {a e} (h : act.pc = .refFail a e) (free : (m.heap a).mheld = none) :
    Act.Step env id act m
      (act.goto (.done (.error ((m.heap a).say
        (.ret (env.info act.meth).funcname (m.heap a).exp.common.matcher.display e))))) m

theorem Act.step_rel {env : CEnv V} {id : Nat} {act act' : Act V} {m m' : Mem V}
    (h : act.step env id m = some (act', m')) : Act.Step env id act m act' m' := by
  unfold Act.step at h
  simp only at h
  split at h
  next hpc => cases h; exact .nomatch hpc
  next a rest hpc =>
    split at h
    · cases h
    next free =>
      split at h
      next hp => cases h; exact .lockPoisoned hpc free hp
      next hp => cases h; exact .lock hpc free (by simpa using hp)
  next a rest hpc =>
    rcases hm : (m.heap a).exp.common.matcher.matches act.tid act.args with p | b
    · simp only [hm] at h; cases h; exact .matchPanic hpc hm
    · cases b
      · simp only [hm] at h; cases h; exact .matchNo hpc hm
      · simp only [hm] at h; cases h; exact .matchYes hpc hm
  next a rest hpc =>
    split at h
    next p hd => cases h; exact .checkPanic hpc hd
    next done hd =>
      split at h
      next hc =>
        cases h
        refine .checkTake hpc hd ?_
        simpa using hc
      next hc =>
        cases h
        have : done = true ∧ (env.vec act.meth).length ≠ 1 := by simpa using hc
        exact .checkSkip hpc (this.1 ▸ hd) this.2
  next a hpc =>
    rcases hc : (m.heap a).exp.common.times.call.1 with p | (e | u)
    · simp only [hc] at h; cases h; exact .incPanic hpc hc
    · simp only [hc] at h; cases h; exact .incFail hpc hc
    · simp only [hc] at h; cases h; exact .incOk hpc hc
  next a e hpc =>
    split at h
    · cases h
    next free => cases h; exact .callFail hpc free
  next a hpc =>
    split at h
    next p hv => cases h; exact .verifyFail hpc hv
    next hv => cases h; exact .verifyOk hpc hv
  next a hpc => cases h; exact .loadLow hpc
  next a low hpc =>
    cases low
    · simp at h; cases h.1; cases h.2; exact .highFew hpc
    · simp at h
      obtain ⟨h1, rfl⟩ := h
      have : act' = act.goto (.satisfy a) := by
        rw [← h1]
        split at h1
        next hh => split <;> rfl
        next => split <;> rfl
      rw [this]
      exact .highEnough hpc
  next a hpc =>
    rcases hs : ((m.heap a).exp.common.satisfySequence m.seqs).1 with p | u
    · simp only [hs] at h; cases h; exact .satFail hpc hs
    · simp only [hs] at h; cases h; exact .satOk hpc hs
  next a hpc =>
    split at h
    next r hr =>
      split at h
      next v hv => cases h; exact .refOk hpc hr hv
      next e hv => cases h; exact .refErr hpc hr hv
    next r poison hr =>
      split at h
      · cases h
      next free =>
        split at h
        next hp => cases h; subst hp; exact .retPoisoned hpc hr free
        next hp =>
          cases h
          have : poison = false := by simpa using hp
          subst this
          exact .retLock hpc hr free
    next r hr => cases h; exact .refMut hpc hr rfl
  next a hpc =>
    split at h
    next r poison hr =>
      split at h
      next v hv => cases h; exact .runOk hpc hr rfl hv
      next e hv => cases h; exact .runErr hpc hr rfl hv
      next p hv => cases h; exact .runPanic hpc hr rfl hv
    · cases h
  next a e hpc =>
    split at h
    · cases h
    next free =>
      split at h
      next r poison hr => cases h; exact .runFail hpc hr free
      · cases h
  next a e hpc =>
    split at h
    · cases h
    next free => cases h; exact .refFail hpc free
  · cases h

/-- Reasoning about all schedules: a property that holds at the start and is kept by every start of
a call and by every step of a call holds after any schedule. -/
theorem CState.run_induct {env : CEnv V} {P : CState V → Prop} {s : CState V} (h0 : P s)
    (hstart : ∀ t meth tid args, P t →
      (∀ a ∈ t.acts, a.finished = true ∨ a.tid ≠ tid) →
      P { t with acts := t.acts ++ [Act.start env meth tid args] })
    (hstep : ∀ (t : CState V) id act act' m', P t → t.acts[id]? = some act →
      Act.Step env id act t.mem act' m' → P { mem := m', acts := t.acts.set id act' })
    (sch : List (Sched V)) : P (s.run env sch) := by
  induction sch generalizing s with
  | nil => exact h0
  | cons x xs ih =>
    refine ih (s := s.step env x) ?_
    cases x with
    | start meth tid args =>
      unfold CState.step
      simp only
      split
      next hc =>
        refine hstart s meth tid args h0 ?_
        intro a ha
        have := List.all_eq_true.mp hc a ha
        simpa using this
      · exact h0
    | step id =>
      unfold CState.step
      simp only
      split
      · exact h0
      next act hact =>
        split
        · exact h0
        next r hr => exact hstep s id act r.1 r.2 h0 hact (Act.step_rel hr)

end Mockall
