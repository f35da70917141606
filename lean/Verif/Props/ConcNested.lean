import Verif.Lemmas.ConcNestedFlat
import Verif.Props.ConcSeq

/-! # Calls made by predicates and return closures (C75)

Predicates and return closures may call mocks, and may do and share anything (`Conc/Nested.lean`).  What is
promised about counts, ceilings, closures and sequences holds all the same. -/

set_option linter.unusedSimpArgs false

namespace Mockall

variable {V : Type}

/-- The state after a schedule, with user code that may call. -/
def nafter (env : CEnv V) (m0 : Mem V) (sch : List (NSched V)) : CState V :=
  CState.nrun env sch ⟨m0, []⟩

theorem nafter_append (env : CEnv V) (m0 : Mem V) (a b : List (NSched V)) :
    nafter env m0 (a ++ b) = CState.nrun env b (nafter env m0 a) := by
  unfold nafter CState.nrun
  rw [List.foldl_append]

/-- C75.  Every execution in which user code makes no calls, and is a function, is one of these
executions; so the theorems here are about more executions than those of C35-C39 and C57. -/
theorem C75_includes (env : CEnv V) (m0 : Mem V) (sch : List (Sched V)) :
    ∃ nsch, nafter env m0 nsch = after env m0 sch := by
  suffices H : ∀ (l : List (Sched V)), ∃ nsch, nafter env m0 nsch = after env m0 l.reverse by
    simpa using H sch.reverse
  intro l
  induction l with
  | nil => exact ⟨[], rfl⟩
  | cons x l ih =>
    rw [List.reverse_cons]
    obtain ⟨nsch, ih⟩ := ih
    generalize l.reverse = sch at *
    have hfl := flat_run env m0 sch
    rw [after_append]
    suffices h : ∃ y, (after env m0 sch).nstep env y = (after env m0 sch).step env x ∨
        (after env m0 sch) = (after env m0 sch).step env x by
      obtain ⟨y, h | h⟩ := h
      · exact ⟨nsch ++ [y], by rw [nafter_append, ih]; exact h⟩
      · exact ⟨nsch, by rw [ih]; exact h⟩
    generalize after env m0 sch = s at *
    cases x with
    | start meth tid args =>
      refine ⟨.start meth tid args, ?_⟩
      simp only [CState.step, CState.nstep]
      by_cases hc : (s.acts.all fun a => a.finished || a.tid != tid) = true
      · left
        have : s.mayCall tid = true := by
          rw [CState.mayCall, List.all_eq_true]
          intro x hx
          rw [List.all_eq_true.mp hc x hx]; rfl
        rw [if_pos hc, if_pos this]
      · right
        rw [if_neg hc]
    | step id =>
      cases hact : s.acts[id]? with
      | none => exact ⟨.start 0 0 [], .inr (by simp only [CState.step, hact])⟩
      | some act =>
        have key := Act.step_answer env id act s.mem
        refine ⟨.step id (act.answer s.mem), ?_⟩
        simp only [CState.step, CState.nstep, hact]
        cases hst : act.step env id s.mem with
        | none => exact .inr rfl
        | some r =>
          left
          rw [hst] at key
          cases hst' : act.step env id (s.mem.scripted (act.answer s.mem)) with
          | none => rw [hst'] at key; cases key
          | some r' =>
            rw [hst'] at key
            cases key
            rw [if_pos]
            rw [CState.innermost_iff]
            intro j x hx hj
            rcases hfl id j act x hact hx hj with h | h | h
            · rw [(Act.step_rel (act' := (r'.1)) (m' := s.mem.restored r'.2) hst).unfinished] at h; cases h
            · exact .inl h
            · exact .inr h

/-! ## Counts -/

/-- C75.  Once all calls are over, an expectation has counted the calls dispatched to it, whoever made
them. -/
theorem C75_count (env : CEnv V) (m0 : Mem V) (hq : m0.Quiet) (sch : List (NSched V))
    (hidle : (nafter env m0 sch).Idle) (a : Nat) :
    ((nafter env m0 sch).mem.heap a).count =
      ((m0.heap a).count + ((nafter env m0 sch).dispatched a).length) % (usizeMax + 1) :=
  CInv.dispatched (ninv_run env hq sch) hidle a

/-- C75.  Verification is decided by the number of calls dispatched to the expectation. -/
theorem C75_verdict (env : CEnv V) (m0 : Mem V) (hq : m0.Quiet) (sch : List (NSched V))
    (hidle : (nafter env m0 sch).Idle) (a : Nat) (info : FnInfo V) (total : Nat)
    (htotal : total = (m0.heap a).count + ((nafter env m0 sch).dispatched a).length)
    (hfit : total ≤ usizeMax)
    (hpois : ((nafter env m0 sch).mem.heap a).exp.common.mpoison = false) :
    ((nafter env m0 sch).mem.heap a).exp.drop false info = .ok () ↔
      (m0.heap a).exp.common.times.range.start ≤ total ∧
        total < (m0.heap a).exp.common.times.range.end_ :=
  CInv.verdict (ninv_run env hq sch) hidle a info total htotal hfit hpois

/-- C75.  At every moment the calls an expectation has answered do not exceed its maximum. -/
theorem C75_ceiling (env : CEnv V) (m0 : Mem V) (hq : m0.Quiet) (sch : List (NSched V)) (a max : Nat)
    (hmax : (m0.heap a).exp.common.times.range.end_ = max + 1)
    (hbefore : (m0.heap a).count ≤ max)
    (hfit : (m0.heap a).count + ((nafter env m0 sch).dispatched a).length ≤ usizeMax) :
    (m0.heap a).count + ((nafter env m0 sch).answered a).length ≤ max :=
  CInv.ceiling (ninv_run env hq sch) a max hmax hbefore hfit

theorem within_nrun (env : CEnv V) (m0 : Mem V) (sch : List (NSched V)) :
    ∀ (c : Nat) (act : Act V), (nafter env m0 sch).acts[c]? = some act → act.Within env := by
  refine CState.nrun_induct (P := fun s => ∀ (c : Nat) (act : Act V), s.acts[c]? = some act →
    act.Within env) (by simp) ?_ ?_ sch
  · intro t meth tid args ih _ c act hact
    simp only [acts_push] at hact
    split at hact
    · cases hact
      exact ⟨by simp [Act.start, Pc.addrs], by simp [Act.start]⟩
    · exact ih c act hact
  · intro t id ans act act' m' ih hact _ hs c x hx
    simp only [acts_set hact] at hx
    split at hx
    · cases hx; exact hs.within (ih id act hact)
    · exact ih c x hx

theorem sole_nrun {env : CEnv V} {m0 : Mem V} (hq : m0.Quiet) {mt a : Nat}
    (hvec : env.vec mt = [a]) (hown : ∀ mt', a ∈ env.vec mt' → mt' = mt)
    (hend : 0 < (m0.heap a).exp.common.times.range.end_)
    (hpois : (m0.heap a).exp.common.mpoison = false)
    (hmatch : (m0.heap a).exp.common.matcher = .always) (sch : List (NSched V))
    (hfit : (m0.heap a).count + (nafter env m0 sch).acts.length ≤ usizeMax) :
    SoleInv env m0 mt a (nafter env m0 sch) := by
  let P : CState V → Prop := fun s => CInv m0 s ∧ (∀ (c : Nat) (act : Act V), s.acts[c]? = some act →
      act.Within env) ∧ ((m0.heap a).count + s.acts.length ≤ usizeMax → SoleInv env m0 mt a s)
  suffices hh : P (nafter env m0 sch) from hh.2.2 hfit
  refine CState.nrun_induct (P := P) ⟨CInv.init hq, by simp, fun _ => ⟨by simp, hpois⟩⟩ ?_ ?_ sch
  · rintro t meth tid args ⟨hi, hw, ih⟩ _
    refine ⟨hi.start meth tid args, ?_, ?_⟩
    · intro c act hact
      simp only [acts_push] at hact
      split at hact
      · cases hact
        exact ⟨by simp [Act.start, Pc.addrs], by simp [Act.start]⟩
      · exact hw c act hact
    · intro hf
      simp only [List.length_append, List.length_cons, List.length_nil] at hf
      obtain ⟨h1, h2⟩ := ih (by omega)
      refine ⟨?_, h2⟩
      intro c act hact hmt
      simp only [acts_push] at hact
      split at hact
      · cases hact
        left
        simp only [Act.start] at hmt ⊢
        rw [hmt, hvec]
      · exact h1 c act hact hmt
  · rintro t id ans act act' m' ⟨hi, hw, ih⟩ hact _ hs
    have hi' := hi.nested hact hs
    refine ⟨hi', ?_, ?_⟩
    · intro c x hx
      simp only [acts_set hact] at hx
      split at hx
      · cases hx; exact hs.within (hw id act hact)
      · exact hw c x hx
    intro hf
    simp only [List.length_set] at hf
    have hS := ih hf
    have hsc : SoleInv env (m0.scripted ans) mt a { t with mem := t.mem.scripted ans } := by
      refine ⟨?_, hS.poison⟩
      have e : ((m0.scripted ans).heap a).exp.common.matcher.display =
          (m0.heap a).exp.common.matcher.display := Matcher.scripted_display _ _
      rw [e]; exact hS.acts
    have hI := hi.scripted ans
    have := SoleInv.step (m0 := m0.scripted ans) (t := { t with mem := t.mem.scripted ans }) hvec hown hend hsc hact
      (hi.coh id act hact) (hw id act hact) (hI.same a) (fun h => hi.count_room hact hf h)
      (fun _ => by
        have e : ((t.mem.scripted ans).heap a).exp.common.matcher = .always := by
          simp only [Mem.scripted, Cell.scripted, (hi.same a).matcher, hmatch]
          rfl
        simp only [e]; rfl) hs
    refine ⟨?_, this.poison⟩
    have e : ((m0.scripted ans).heap a).exp.common.matcher.display =
        (m0.heap a).exp.common.matcher.display := Matcher.scripted_display _ _
    rw [← e]; exact this.acts

/-- C75.  If a method has one expectation, without arguments to match, then exactly `min m max` of its `m`
calls get past the count check, and all others panic with the message that it was called too often. -/
theorem C75_exact (env : CEnv V) (m0 : Mem V) (hq : m0.Quiet) (sch : List (NSched V)) (mt a max : Nat)
    (hvec : env.vec mt = [a]) (hown : ∀ mt', a ∈ env.vec mt' → mt' = mt)
    (hmax : (m0.heap a).exp.common.times.range.end_ = max + 1)
    (hpois : (m0.heap a).exp.common.mpoison = false) (hzero : (m0.heap a).count = 0)
    (hmatch : (m0.heap a).exp.common.matcher = .always)
    (hfit : (nafter env m0 sch).acts.length ≤ usizeMax)
    (hidle : (nafter env m0 sch).Idle) :
    (((nafter env m0 sch).callsOf mt).filter (·.passed)).length =
      min ((nafter env m0 sch).callsOf mt).length max ∧
    ∀ act ∈ (nafter env m0 sch).callsOf mt, act.passed = false →
      ∃ e, act.pc = .done (.error (.call (env.info mt).funcname
        (m0.heap a).exp.common.matcher.display e)) :=
  CInv.exact (ninv_run env hq sch) (within_nrun env m0 sch)
    (sole_nrun hq hvec hown (by omega) hpois hmatch sch
      (by rw [hzero, Nat.zero_add]; exact hfit)) hown hmax hzero hfit hidle

/-! ## Closures -/

/-- C75.  At every moment at most one call executes the return closure of an expectation.  In particular a
closure is never entered again while it runs, not even from itself. -/
theorem C75_exclusive (env : CEnv V) (m0 : Mem V) (hq : m0.Quiet) (sch : List (NSched V)) (a : Nat)
    (c d : Nat) (x y : Act V) (hc : (nafter env m0 sch).acts[c]? = some x)
    (hd : (nafter env m0 sch).acts[d]? = some y) (hx : x.inClosure a) (hy : y.inClosure a) : c = d := by
  have h := (ninv_run env hq sch).locks
  have h1 := (h.r a c).mpr ⟨x, hc, by rw [hx]; rfl⟩
  have h2 := (h.r a d).mpr ⟨y, hd, by rw [hy]; rfl⟩
  rw [h1] at h2
  injection h2

theorem Ret.scripted_tag (r : Except Panic V) (f : Ret V) : (f.scripted r).tag? = f.tag? := by
  cases f with
  | static g p => cases g <;> rfl
  | _ => rfl

theorem Ret.scripted_isOnce (r : Except Panic V) (f : Ret V) (t : Nat) :
    (f.scripted r).isOnce t ↔ f.isOnce t := by
  cases f with
  | static g p => cases g <;> exact Iff.rfl
  | _ => exact Iff.rfl

theorem Ret.restored_tag (old new : Ret V) : (old.restored new).tag? = new.tag? := by
  cases old with
  | static f p =>
    cases new with
    | static g q => cases f <;> cases g <;> rfl
    | _ => rfl
  | _ => cases new <;> rfl

theorem Ret.restored_isOnce (old new : Ret V) (t : Nat) :
    (old.restored new).isOnce t ↔ new.isOnce t := by
  cases old with
  | static f p =>
    cases new with
    | static g q => cases f <;> cases g <;> exact Iff.rfl
    | _ => exact Iff.rfl
  | _ => cases new <;> exact Iff.rfl

theorem OnceInv.scripted {a t : Nat} {m : Mem V} (h : OnceInv a t m) (ans : Answer V) :
    OnceInv a t (m.scripted ans) := by
  have e : ∀ b, ((m.scripted ans).heap b).exp.ret = (m.heap b).exp.ret.scripted ans.value := fun _ => rfl
  have e' : (m.scripted ans).ranTimes t = m.ranTimes t := rfl
  unfold OnceInv at h ⊢
  simpa only [e, e', Ret.scripted_tag, Ret.scripted_isOnce] using h

theorem OnceInv.restored {a t : Nat} {m m' : Mem V} (h : OnceInv a t m') :
    OnceInv a t (m.restored m') := by
  have e : ∀ b, ((m.restored m').heap b).exp.ret = (m.heap b).exp.ret.restored (m'.heap b).exp.ret :=
    fun _ => rfl
  have e' : (m.restored m').ranTimes t = m'.ranTimes t := rfl
  unfold OnceInv at h ⊢
  simpa only [e, e', Ret.restored_tag, Ret.restored_isOnce] using h

/-- C75.  A `return_once` closure runs at most once. -/
theorem C75_once (env : CEnv V) (m0 : Mem V) (sch : List (NSched V)) (a t : Nat)
    (honce : (m0.heap a).exp.ret.isOnce t)
    (honly : ∀ b, b ≠ a → (m0.heap b).exp.ret.tag? ≠ some t) (hnew : ∀ r ∈ m0.runs, r.tag ≠ t) :
    ((nafter env m0 sch).mem.runs.filter fun r => r.tag == t).length ≤ 1 := by
  have h : OnceInv a t (nafter env m0 sch).mem :=
    CState.nrun_induct (P := fun s => OnceInv a t s.mem) (OnceInv.init honce honly hnew)
      (fun _ _ _ _ h _ => h) (fun _ _ ans _ _ _ h _ _ hs => ((h.scripted ans).step hs).restored) sch
  exact h.le

/-! ## Sequences -/

theorem Mem.Fresh1.scripted {m : Mem V} {sid : Nat} (h : m.Fresh1 sid) (ans : Answer V) :
    (m.scripted ans).Fresh1 sid := ⟨h.one, h.uniq, h.zero, h.level⟩

theorem CSeqInv.scripted {m0 : Mem V} {sid : Nat} {s : CState V} (h : CSeqInv m0 sid s)
    (ans : Answer V) : CSeqInv (m0.scripted ans) sid { s with mem := s.mem.scripted ans } :=
  ⟨h.verified, h.low, h.late, h.passed⟩

theorem CSeqInv.restored {m0 : Mem V} {sid : Nat} {s : CState V} {ans : Answer V} {m : Mem V}
    (h : CSeqInv (m0.scripted ans) sid s) : CSeqInv m0 sid { s with mem := m.restored s.mem } :=
  ⟨h.verified, h.low, h.late, h.passed⟩

theorem CSeqInv.nested {env : CEnv V} {m0 : Mem V} {sid : Nat} (hf : m0.Fresh1 sid) {s : CState V}
    (h : CSeqInv m0 sid s) (hi : CInv m0 s) (hl : s.acts.length ≤ usizeMax) {id : Nat} {ans : Answer V}
    {act act' : Act V} {m' : Mem V} (hact : s.acts[id]? = some act)
    (hs : Act.Step env id act (s.mem.scripted ans) act' m') :
    CSeqInv m0 sid { mem := s.mem.restored m', acts := s.acts.set id act' } :=
  ((h.scripted ans).step (s := { s with mem := s.mem.scripted ans }) (hf.scripted ans) (hi.scripted ans) hl
    hact hs).restored

theorem cseqInv_nrun {env : CEnv V} {m0 : Mem V} (hq : m0.Quiet) {sid : Nat} (hf : m0.Fresh1 sid)
    (sch : List (NSched V)) (hfit : (nafter env m0 sch).acts.length ≤ usizeMax) :
    CSeqInv m0 sid (nafter env m0 sch) := by
  let P : CState V → Prop := fun s => CInv m0 s ∧ (s.acts.length ≤ usizeMax → CSeqInv m0 sid s)
  suffices hh : P (nafter env m0 sch) from hh.2 hfit
  refine CState.nrun_induct (P := P) ?_ ?_ ?_ sch
  · exact ⟨CInv.init hq, fun _ => CSeqInv.init hf⟩
  · rintro s meth tid args ⟨hi, ih⟩ _
    refine ⟨hi.start meth tid args, fun hl => ?_⟩
    simp only [List.length_append, List.length_cons, List.length_nil] at hl
    exact (ih (by omega)).start meth tid args
  · rintro s id ans act act' m' ⟨hi, ih⟩ hact _ hs
    refine ⟨hi.nested hact hs, fun hl => ?_⟩
    simp only [List.length_set] at hl
    exact (ih hl).nested hf hi hl hact hs

/-- C75.  In a sequence of `times(1)` expectations, when a call to member number `k` has returned, every
earlier member has had its call. -/
theorem C75_order (env : CEnv V) (m0 : Mem V) (hq : m0.Quiet) (sid : Nat) (hf : m0.Fresh1 sid)
    (sch : List (NSched V)) (hfit : (nafter env m0 sch).acts.length ≤ usizeMax)
    (act : Act V) (hact : act ∈ (nafter env m0 sch).acts) (a k : Nat) (hm : m0.member sid a k)
    (hvia : act.via = some a) (v : V) (hv : act.pc = .done (.ok v))
    (b j : Nat) (hj : m0.member sid b j) (hjk : j < k) :
    ∃ x ∈ (nafter env m0 sch).acts, x.via = some b ∧ x.passed = true := by
  have h := cseqInv_nrun hq hf sch hfit
  obtain ⟨c, hc⟩ := List.getElem?_of_mem hact
  have hlt := h.late c act a k hc hm hvia (by rw [hv]; rfl)
  obtain ⟨d, x, hx, h1, h2, _⟩ := h.passed b j hj (by omega)
  exact ⟨x, List.mem_of_getElem? hx, h1, h2⟩

/-- C75.  And already when the closure of member number `k` is entered: what it calls is after the calls of
all earlier members. -/
theorem C75_order_entered (env : CEnv V) (m0 : Mem V) (hq : m0.Quiet) (sid : Nat) (hf : m0.Fresh1 sid)
    (sch : List (NSched V)) (hfit : (nafter env m0 sch).acts.length ≤ usizeMax)
    (act : Act V) (hact : act ∈ (nafter env m0 sch).acts) (a k : Nat) (hm : m0.member sid a k)
    (hin : act.inClosure a) (b j : Nat) (hj : m0.member sid b j) (hjk : j < k) :
    ∃ x ∈ (nafter env m0 sch).acts, x.via = some b ∧ x.passed = true := by
  have h := cseqInv_nrun hq hf sch hfit
  obtain ⟨c, hc⟩ := List.getElem?_of_mem hact
  have hcoh := (ninv_run env hq sch).coh c act hc
  have hvia : act.via = some a := by
    unfold Act.inClosure at hin
    simp only [Act.Coh, hin] at hcoh
    exact hcoh.1
  have hlt := h.late c act a k hc hm hvia (by rw [hin]; rfl)
  obtain ⟨d, x, hx, h1, h2, _⟩ := h.passed b j hj (by omega)
  exact ⟨x, List.mem_of_getElem? hx, h1, h2⟩

/-- The return function has run, or is as configured. -/
def NRetInv (m0 : Mem V) (a : Nat) (s : CState V) : Prop :=
  (s.mem.heap a).exp.ret = (m0.heap a).exp.ret ∨ ∃ (c : Nat) (x : Act V),
    s.acts[c]? = some x ∧ x.via = some a ∧ x.passed = true ∧ x.pc.ran = true

theorem NRetInv.nested {env : CEnv V} {m0 : Mem V} {a : Nat} {s : CState V} (ih : NRetInv m0 a s)
    (hi : CInv m0 s) {id : Nat} {ans : Answer V} {act act' : Act V} {m' : Mem V}
    (hact : s.acts[id]? = some act) (hs : Act.Step env id act (s.mem.scripted ans) act' m') :
    NRetInv m0 a { mem := s.mem.restored m', acts := s.acts.set id act' } := by
  have hcoh := hi.coh id act hact
  unfold NRetInv at ih ⊢
  rcases hs.retKept hcoh a with h | ⟨h1, h2, h3⟩
  · rcases ih with ih | ⟨c, x, hx, hv, hp, hr⟩
    · left
      simp only [Mem.restored, Cell.restored, h]
      simp only [Mem.scripted, Cell.scripted, Ret.restored_scripted, ih]
    · right
      by_cases hc : c = id
      · subst hc
        rw [hact] at hx; cases hx
        have hk := hs.keep hcoh hp
        exact ⟨c, act', by simp [acts_set hact], by rw [hk.2]; exact hv, hk.1, hs.ran hr⟩
      · exact ⟨c, x, by simp [acts_set hact, hc, hx], hv, hp, hr⟩
  · right
    have hk := hs.keep hcoh h3
    exact ⟨id, act', by simp [acts_set hact], by rw [hk.2]; exact h2, hk.1, h1⟩

theorem NRetInv.start {env : CEnv V} {m0 : Mem V} {a : Nat} {s : CState V} (ih : NRetInv m0 a s)
    (meth tid : Nat) (args : List V) :
    NRetInv m0 a { s with acts := s.acts ++ [Act.start env meth tid args] } := by
  refine ih.imp id ?_
  rintro ⟨c, x, hx, h⟩
  refine ⟨c, x, ?_, h⟩
  simp only [acts_push]
  rw [if_neg, hx]
  intro hc
  rw [hc, List.getElem?_eq_none (Nat.le_refl _)] at hx
  cases hx

theorem ret_nrun {env : CEnv V} {m0 : Mem V} (hq : m0.Quiet) (sch : List (NSched V)) (a : Nat) :
    NRetInv m0 a (nafter env m0 sch) := by
  have : CInv m0 (nafter env m0 sch) ∧ NRetInv m0 a (nafter env m0 sch) :=
    CState.nrun_induct (P := fun s => CInv m0 s ∧ NRetInv m0 a s) ⟨CInv.init hq, .inl rfl⟩
      (fun _ meth tid args h _ => ⟨h.1.start meth tid args, h.2.start meth tid args⟩)
      (fun _ _ _ _ _ _ h hact _ hs => ⟨h.1.nested hact hs, h.2.nested h.1 hact hs⟩) sch
  exact this.2

/-- The return function of this expectation is a closure that thread `tid` may run. -/
def Expectation.Runs (tid : Nat) (e : Expectation V) : Prop :=
  ∃ f, e.ret = .static f false ∧ f.enters tid = true

theorem Expectation.Runs.answers {tid : Nat} {e : Expectation V} (h : e.Runs tid) (nightly : Bool)
    (d : Option V) (args : List V) (v : V) (r : Except Panic V) (hr : r = .ok v) :
    Expectation.Answers nightly d tid args { e with ret := e.ret.scripted r } := by
  obtain ⟨f, hf, he⟩ := h
  subst hr
  unfold Expectation.Answers
  rw [hf]
  simp only [Ret.scripted, true_and]
  refine ⟨v, ?_⟩
  cases f <;> simp only [StaticRfunc.enters, Bool.false_eq_true, beq_iff_eq] at he <;>
    simp [StaticRfunc.scripted, StaticRfunc.callMut, Closure.call, he]

/-- C75.  In a sequence of `times(1)` expectations, let a call start, possibly from the closure of an
earlier member, when the calls to all members before number `k` have returned or are in their closures.  If
it is the call that member `k` accepts, and the closure of member `k` yields a value, then it is never
rejected: when it is over it has returned a value. -/
theorem C75_accept (env : CEnv V) (m0 : Mem V) (hq : m0.Quiet) (sid : Nat) (hf : m0.Fresh1 sid)
    (pre post : List (NSched V)) (mt tid : Nat) (args : List V) (a k : Nat) (hm : m0.member sid a k)
    (hfree : (nafter env m0 pre).mayCall tid = true)
    (hbefore : ∀ j, j < k → ∃ b, m0.member sid b j ∧
      ∃ x ∈ (nafter env m0 pre).acts, x.via = some b ∧ ((∃ v, x.pc = .done (.ok v)) ∨ x.inClosure b))
    (hruns : (m0.heap a).exp.Runs tid)
    (hval : ∀ ans, .step (nafter env m0 pre).acts.length ans ∈ post → ∃ v, ans.value = .ok v)
    (hfit : (nafter env m0 (pre ++ .start mt tid args :: post)).acts.length ≤ usizeMax)
    (act : Act V)
    (hact : (nafter env m0 (pre ++ .start mt tid args :: post)).acts[(nafter env m0 pre).acts.length]?
      = some act) (hvia : act.via = some a) (hpass : act.passed = true)
    (hfin : act.finished = true) :
    ∃ v, act.pc = .done (.ok v) := by
  let id := (nafter env m0 pre).acts.length
  let Q : CState V → Prop := fun s =>
    CSeqInv m0 sid s ∧ k ≤ (s.mem.seqs sid).level ∧ AcceptInv m0 a id mt tid args s
  let P : CState V → Prop := fun s => id < s.acts.length ∧ CInv m0 s ∧
    (s.acts.length ≤ usizeMax → Q s)
  suffices hh : P (nafter env m0 (pre ++ .start mt tid args :: post)) by
    rcases ((hh.2.2 hfit).2.2.2 act hact).2.2.2 hvia hpass with h | h | h | h
    · unfold Act.finished at hfin
      cases hpc : act.pc <;> simp [hpc, Pc.early] at h hfin
    · simp [Act.finished, h] at hfin
    · simp [Act.finished, h] at hfin
    · exact h
  have hrun : nafter env m0 (pre ++ .start mt tid args :: post) =
      CState.nrun env post ⟨(nafter env m0 pre).mem,
        (nafter env m0 pre).acts ++ [Act.start env mt tid args]⟩ := by
    rw [nafter_append]
    have : (nafter env m0 pre).nstep env (.start mt tid args) = ⟨(nafter env m0 pre).mem,
        (nafter env m0 pre).acts ++ [Act.start env mt tid args]⟩ := by
      unfold CState.nstep
      simp only
      rw [if_pos hfree]
    simp only [CState.nrun, List.foldl_cons, this]
  rw [hrun]
  have hstart : ∀ s meth tid args, P s →
      P { s with acts := s.acts ++ [Act.start env meth tid args] } := by
    rintro s meth tid args ⟨hid, hi, ih⟩
    refine ⟨by simp; omega, hi.start meth tid args, fun hl => ?_⟩
    simp only [List.length_append, List.length_cons, List.length_nil] at hl
    obtain ⟨q1, q2, q3⟩ := ih (by omega)
    exact ⟨q1.start meth tid args, q2, q3.start hid meth tid args⟩
  refine CState.nrun_induct_of (P := P) (G := fun i ans => i = id → ∃ v, ans.value = .ok v) ?_
    (fun s meth tid args h _ => hstart s meth tid args h) ?_ post (fun i ans h hi => hval ans (by rw [hi] at h; exact h))
  · refine ⟨by simp [id], (ninv_run env hq pre).start mt tid args, fun hl => ?_⟩
    simp only [List.length_append, List.length_cons, List.length_nil] at hl
    have hsi := cseqInv_nrun (env := env) hq hf pre (by omega)
    have hret : NRetInv m0 a ⟨(nafter env m0 pre).mem,
        (nafter env m0 pre).acts ++ [Act.start env mt tid args]⟩ := (ret_nrun hq pre a).start mt tid args
    refine ⟨hsi.start mt tid args, ?_, hret, ?_⟩
    · rcases Nat.eq_zero_or_pos k with h0 | hpos
      · omega
      · obtain ⟨b, hb, x, hx, hxv, hxd⟩ := hbefore (k - 1) (by omega)
        obtain ⟨c, hc⟩ := List.getElem?_of_mem hx
        have := hsi.late c x b (k - 1) hc hb hxv (by
          rcases hxd with ⟨v, h⟩ | h <;> rw [h] <;> rfl)
        simp only
        omega
    · intro y hy
      simp only [acts_push, id] at hy
      rw [if_pos trivial] at hy
      cases hy
      simp [Act.start]
  · rintro s i ans x x' m' ⟨hid, hi, ih⟩ hG hx _ hs
    refine ⟨by simpa using hid, hi.nested hx hs, fun hl => ?_⟩
    simp only [List.length_set] at hl
    obtain ⟨q1, q2, q3⟩ := ih hl
    refine ⟨q1.nested hf hi hl hx hs, ?_, NRetInv.nested q3.1 hi hx hs, ?_⟩
    · rcases (q1.scripted ans).level_step (hi.scripted ans) hx hs with h | ⟨_, _, _, _, h1, h2, _⟩
      · simp only [Mem.restored]; rw [h]; exact q2
      · simp only [Mem.restored]
        simp only [Mem.scripted] at h1 h2
        omega
    · have hsc : AcceptInv (m0.scripted ans) a id mt tid args { s with mem := s.mem.scripted ans } := by
        refine ⟨q3.1.imp ?_ (fun h => h), q3.2⟩
        intro h
        simp only [Mem.scripted, Cell.scripted, h]
      exact (hsc.step (s := { s with mem := s.mem.scripted ans }) (hf.scripted ans) (k := k) hm
        (fun h => by
          obtain ⟨v, hv⟩ := hG h.symm
          have := hruns.answers env.nightly (env.info mt).default args v ans.value hv
          exact this) (hi.scripted ans) (q1.scripted ans) hl q2 hx hs).2

end Mockall
