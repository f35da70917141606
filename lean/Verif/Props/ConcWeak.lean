import Verif.Props.ConcSeq
import Verif.Lemmas.ConcWeak
import Verif.Spec.HappensBefore

/-! # Concurrent calls with relaxed atomics (C74) -/

set_option linter.unusedSimpArgs false

namespace Mockall

variable {V : Type}

/-- The state after a schedule, with relaxed atomics. -/
def wafter (env : CEnv V) (m0 : Mem V) (sch : List (WSched V)) : WState V :=
  (WState.init m0).run env sch

theorem wafter_append (env : CEnv V) (m0 : Mem V) (a b : List (WSched V)) :
    wafter env m0 (a ++ b) = (wafter env m0 a).run env b := WState.run_append env a b _

/-! ## Knowledge -/

theorem WInv.step {env : CEnv V} {m0 : Mem V} {s : WState V} (h : WInv m0 s) (x : WSched V) :
    WInv m0 (s.step env x) :=
  WState.run_induct (s := s) (env := env) h (fun _ meth tid args hi _ => hi.start meth tid args)
    (fun _ _ _ _ _ hi hact _ hs => hi.moved hact hs)
    (fun _ _ _ _ _ _ _ hi hact hr hv hle hs => hi.load hact hr hv hle hs)
    (fun _ u v hi => hi.synced u v) [x]

theorem WInv.run {env : CEnv V} {m0 : Mem V} {s : WState V} (h : WInv m0 s) (sch : List (WSched V)) :
    WInv m0 (s.run env sch) :=
  WState.run_induct (s := s) (env := env) h (fun _ meth tid args hi _ => hi.start meth tid args)
    (fun _ _ _ _ _ hi hact _ hs => hi.moved hact hs)
    (fun _ _ _ _ _ _ _ hi hact hr hv hle hs => hi.load hact hr hv hle hs)
    (fun _ u v hi => hi.synced u v) sch

/-- Threads do not forget, and no value goes away. -/
theorem view_mono {env : CEnv V} {m0 : Mem V} {s : WState V} (h : WInv m0 s) (sch : List (WSched V)) :
    (∀ t l, s.view t l ≤ (s.run env sch).view t l) ∧
    (∀ l, (s.hist l).length ≤ ((s.run env sch).hist l).length) := by
  let P : WState V → Prop := fun r => WInv m0 r ∧ (∀ t l, s.view t l ≤ r.view t l) ∧
    (∀ l, (s.hist l).length ≤ (r.hist l).length)
  suffices hh : P (s.run env sch) from hh.2
  refine WState.run_induct (P := P) ⟨h, fun _ _ => Nat.le_refl _, fun _ => Nat.le_refl _⟩ ?_ ?_ ?_ ?_ sch
  · rintro r meth tid args ⟨hi, h1, h2⟩ _
    exact ⟨hi.start meth tid args, h1, h2⟩
  · rintro r id act act' m' ⟨hi, h1, h2⟩ hact _ hs
    refine ⟨hi.moved hact hs, ?_, ?_⟩
    · intro t l
      have := hi.bound t l
      have := h1 t l
      rw [r.moved_view]
      split <;> omega
    · intro l
      have := h2 l
      rw [r.moved_hist]
      split
      · simp; omega
      · exact this
  · rintro r id act act' l i v ⟨hi, h1, h2⟩ hact hr hv hle hs
    refine ⟨hi.load hact hr hv hle hs, ?_, h2⟩
    intro t k
    have := h1 t k
    simp only [WState.learn, WState.move]
    split
    next ht => obtain ⟨rfl, rfl⟩ := ht; omega
    · exact this
  · rintro r u v ⟨hi, h1, h2⟩
    refine ⟨hi.synced u v, ?_, h2⟩
    intro t l
    have := h1 t l
    simp only [WState.synced]
    split
    next ht => subst ht; omega
    · exact this

/-- Knowledge travels along synchronisations. -/
theorem Hb.view {env : CEnv V} {m0 : Mem V} {sch : List (WSched V)} {t u : Nat} (h : Hb sch t u) :
    ∀ {s : WState V}, WInv m0 s → ∀ l, s.view t l ≤ (s.run env sch).view u l := by
  induction h with
  | same sch t => intro s hi l; exact (view_mono hi sch).1 t l
  | @sync bef aft t u v w _ _ ih1 ih2 =>
    intro s hi l
    have e : s.run env (bef ++ .sync u v :: aft) =
        ((s.run env bef).step env (.sync u v)).run env aft := by
      rw [WState.run_append]; rfl
    rw [e]
    have hi1 := hi.run (env := env) bef
    have h1 := ih1 hi l
    have h2 := ih2 (hi1.step (env := env) (.sync u v)) l
    refine Nat.le_trans (Nat.le_trans h1 ?_) h2
    simp only [WState.step, if_true]
    omega

/-- Whoever is synchronised with all threads whose calls were dispatched to `a` knows its count. -/
theorem WInv.sees_latest {env : CEnv V} {m0 : Mem V} {s : WState V} (hi : WInv m0 s)
    {sch : List (WSched V)} {t a : Nat}
    (hsync : ∀ act ∈ s.cs.acts, act.via = some a → Hb sch act.tid t) :
    (s.hist (.cnt a)).length ≤ (s.run env sch).view t (.cnt a) + 1 := by
  rcases hi.top (.cnt a) with h | ⟨act, hact, hc, h⟩
  · omega
  · have hc := hc a rfl
    simp only [Act.counted, Bool.and_eq_true, beq_iff_eq] at hc
    have := (hsync act hact hc.1).view (env := env) hi (.cnt a)
    omega

theorem WInv.get_cnt {m0 : Mem V} {s : WState V} (hi : WInv m0 s) (a : Nat) :
    (s.cs.mem.heap a).count =
      ((m0.heap a).count + ((s.hist (.cnt a)).length - 1)) % (usizeMax + 1) :=
  hi.cnt a _ _ (hi.last (.cnt a))

theorem WInv.get_lvl {m0 : Mem V} {s : WState V} (hi : WInv m0 s) (sid : Nat) :
    (s.cs.mem.seqs sid).level = (m0.seqs sid).level + ((s.hist (.lvl sid)).length - 1) :=
  hi.lvl sid _ _ (hi.last (.lvl sid))

/-! ## Sequentially consistent executions are among these -/

theorem Mem.pretend_self (m : Mem V) (l : Loc) : m.pretend l (m.get l) = m := by
  cases l with
  | cnt a =>
    simp only [Mem.pretend, Mem.put, Mem.get]
    cases m with
    | mk heap seqs runs =>
      simp only [Mem.mk.injEq, and_true]
      funext b
      split
      next h => subst h; rfl
      next => rfl
  | lvl sid =>
    simp only [Mem.pretend, Mem.get]
    cases m with
    | mk heap seqs runs =>
      simp only [Mem.mk.injEq, and_true, true_and]
      funext b
      simp only [Seqs.set]
      split
      next h => subst h; rfl
      next => rfl

/-- C74.  The executions of `Conc/Call.lean` are executions here as well: every statement below, which is
about all executions with relaxed atomics, is in particular about those. -/
theorem C74_includes (env : CEnv V) (m0 : Mem V) (hq : m0.Quiet) (sch : List (Sched V)) :
    ∃ wsch, (wafter env m0 wsch).cs = after env m0 sch := by
  suffices h : ∀ (sch : List (Sched V)) (s : WState V), WInv m0 s →
      ∃ wsch, (s.run env wsch).cs = s.cs.run env sch from h sch _ (WInv.init hq)
  intro sch
  induction sch with
  | nil => intro s _; exact ⟨[], rfl⟩
  | cons x xs ih =>
    intro s hi
    have one : ∃ y, (s.step env y).cs = s.cs.step env x := by
      cases x with
      | start meth tid args => exact ⟨.start meth tid args, rfl⟩
      | step id =>
        cases hact : s.cs.acts[id]? with
        | none => exact ⟨.step id, by simp [WState.step, CState.step, hact]⟩
        | some act =>
          cases hr : act.pc.reads s.cs.mem with
          | none =>
            refine ⟨.step id, ?_⟩
            simp only [WState.step, CState.step, hact, hr]
            cases hst : act.step env id s.cs.mem with
            | none => rfl
            | some r =>
              simp only
              split <;> rfl
          | some l =>
            refine ⟨.load id ((s.hist l).length - 1), ?_⟩
            simp only [WState.step, CState.step, hact, hr, hi.last l]
            rw [if_pos (by have := hi.bound act.tid l; omega), Mem.pretend_self]
            cases hst : act.step env id s.cs.mem with
            | none => rfl
            | some r =>
              have := (Act.step_rel (act' := r.1) (m' := r.2) hst).load_mem hr
              simp only [WState.learn, WState.move, this]
    obtain ⟨y, hy⟩ := one
    obtain ⟨ys, hys⟩ := ih (s.step env y) (hi.step y)
    refine ⟨y :: ys, ?_⟩
    show ((s.step env y).run env ys).cs = (s.cs.step env x).run env xs
    rw [hys, hy]

/-! ## Counting (C35, C36) -/

/-- C74.  Whatever the schedule and whatever values the loads see, once all calls are over the count
recorded by an expectation is the count it had before plus the number of calls dispatched to it (modulo
2^64). -/
theorem C74_count (env : CEnv V) (m0 : Mem V) (hq : m0.Quiet) (sch : List (WSched V))
    (hidle : (wafter env m0 sch).cs.Idle) (a : Nat) :
    ((wafter env m0 sch).cs.mem.heap a).count =
      ((m0.heap a).count + ((wafter env m0 sch).cs.dispatched a).length) % (usizeMax + 1) :=
  (winv_run env hq sch).base.dispatched hidle a

theorem syncs_cs {env : CEnv V} {join : List (WSched V)} (h : ∀ x ∈ join, ∃ u v, x = .sync u v)
    (s : WState V) : (s.run env join).cs = s.cs := by
  induction join generalizing s with
  | nil => rfl
  | cons x xs ih =>
    obtain ⟨u, v, rfl⟩ := h x (by simp)
    exact ih (fun y hy => h y (by simp [hy])) (s.step env (.sync u v))

/-- C74.  Once the calls are over and all threads whose calls the expectation got have synchronised with
the thread that drops the mock, whatever that thread sees when it loads the count, the verification on
drop is decided by the number of calls dispatched to the expectation. -/
theorem C74_verdict (env : CEnv V) (m0 : Mem V) (hq : m0.Quiet) (calls join : List (WSched V))
    (hidle : (wafter env m0 calls).cs.Idle) (hjoin : ∀ x ∈ join, ∃ u v, x = .sync u v)
    (a owner : Nat) (hsync : ∀ act ∈ (wafter env m0 calls).cs.dispatched a, Hb join act.tid owner)
    (info : FnInfo V) (total : Nat)
    (htotal : total = (m0.heap a).count + ((wafter env m0 calls).cs.dispatched a).length)
    (hfit : total ≤ usizeMax)
    (hpois : ((wafter env m0 calls).cs.mem.heap a).exp.common.mpoison = false)
    (v : Nat) (hv : (wafter env m0 (calls ++ join)).CanSee owner (.cnt a) v) :
    (((wafter env m0 calls).cs.mem.pretend (.cnt a) v).heap a).exp.drop false info = .ok () ↔
      (m0.heap a).exp.common.times.range.start ≤ total ∧
        total < (m0.heap a).exp.common.times.range.end_ := by
  have hi := winv_run env hq calls
  have hi2 := winv_run env hq (calls ++ join)
  have hjoin : (wafter env m0 (calls ++ join)).cs = (wafter env m0 calls).cs := by
    rw [wafter_append]; exact syncs_cs hjoin _
  have hval : v = (wafter env m0 calls).cs.mem.get (.cnt a) := by
    obtain ⟨i, hle, hv⟩ := hv
    have h1 := WInv.sees_latest (env := env) hi (sch := join) (a := a) (t := owner)
      (fun act hact hv => hsync act (List.mem_filter.mpr ⟨hact, by simp [hv]⟩))
    have h2 := hi2.len a
    have h3 := hi.len a
    change ((wafter env m0 (calls ++ join)).hist (.cnt a)).length =
      (wafter env m0 (calls ++ join)).cs.acts.countP (Act.counted a) + 1 at h2
    change ((wafter env m0 calls).hist (.cnt a)).length =
      (wafter env m0 calls).cs.acts.countP (Act.counted a) + 1 at h3
    rw [hjoin] at h2
    change ((wafter env m0 calls).hist (.cnt a)).length ≤
      ((wafter env m0 calls).run env join).view owner (.cnt a) + 1 at h1
    rw [← wafter_append] at h1
    have h4 : i < ((wafter env m0 (calls ++ join)).hist (.cnt a)).length := by
      rcases Nat.lt_or_ge i ((wafter env m0 (calls ++ join)).hist (.cnt a)).length with h' | h'
      · exact h'
      · rw [List.getElem?_eq_none h'] at hv; cases hv
    have h5 := hi2.last (.cnt a)
    change ((wafter env m0 (calls ++ join)).hist (.cnt a))[
      ((wafter env m0 (calls ++ join)).hist (.cnt a)).length - 1]? =
        some ((wafter env m0 (calls ++ join)).cs.mem.get (.cnt a)) at h5
    have h6 : i = ((wafter env m0 (calls ++ join)).hist (.cnt a)).length - 1 := by omega
    rw [h6, h5, hjoin] at hv
    exact (Option.some.inj hv).symm
  rw [hval, Mem.pretend_self]
  exact hi.base.verdict hidle a info total htotal hfit hpois

/-- C74.  At every moment: the calls an expectation has answered in this phase, together with those
counted before, never exceed the maximum of its window. -/
theorem C74_ceiling (env : CEnv V) (m0 : Mem V) (hq : m0.Quiet) (sch : List (WSched V)) (a max : Nat)
    (hmax : (m0.heap a).exp.common.times.range.end_ = max + 1)
    (hbefore : (m0.heap a).count ≤ max)
    (hfit : (m0.heap a).count + ((wafter env m0 sch).cs.dispatched a).length ≤ usizeMax) :
    (m0.heap a).count + ((wafter env m0 sch).cs.answered a).length ≤ max :=
  (winv_run env hq sch).base.ceiling a max hmax hbefore hfit

theorem wwithin_run (env : CEnv V) (m0 : Mem V) (sch : List (WSched V)) :
    ∀ (c : Nat) (act : Act V), (wafter env m0 sch).cs.acts[c]? = some act → act.Within env := by
  refine WState.run_induct (P := fun s => ∀ (c : Nat) (act : Act V), s.cs.acts[c]? = some act →
      act.Within env) (by simp [WState.init]) ?_ ?_ ?_ (fun _ _ _ h => h) sch
  · intro t meth tid args ih _ c act hact
    simp only [acts_push] at hact
    split at hact
    · cases hact
      exact ⟨by simp [Act.start, Pc.addrs], by simp [Act.start]⟩
    · exact ih c act hact
  · intro t id act act' m' ih hact _ hs c x hx
    rw [t.moved_cs] at hx
    simp only [acts_set hact] at hx
    split at hx
    · cases hx; exact hs.within (ih id act hact)
    · exact ih c x hx
  · intro t id act act' l i v ih hact _ _ _ hs c x hx
    simp only [WState.learn, WState.move, acts_set hact] at hx
    split at hx
    · cases hx; exact hs.within (ih id act hact)
    · exact ih c x hx

theorem acts_set_forall {acts : List (Act V)} {id : Nat} {act act' : Act V}
    (hact : acts[id]? = some act) {Q : Nat → Nat → List V → Prop}
    (hid : act'.meth = act.meth ∧ act'.tid = act.tid ∧ act'.args = act.args)
    (h : ∀ x ∈ acts.set id act', Q x.meth x.tid x.args) : ∀ x ∈ acts, Q x.meth x.tid x.args := by
  intro x hx
  obtain ⟨c, hc⟩ := List.getElem?_of_mem hx
  by_cases hcid : c = id
  · subst hcid
    rw [hact] at hc; cases hc
    have := h act' (List.mem_of_getElem? (i := c) (by simp [acts_set hact]))
    rwa [hid.1, hid.2.1, hid.2.2] at this
  · exact h x (List.mem_of_getElem? (i := c) (by simp [acts_set hact, hcid, hc]))

theorem wsole_run {env : CEnv V} {m0 : Mem V} (hq : m0.Quiet) {mt a : Nat}
    (hvec : env.vec mt = [a]) (hown : ∀ mt', a ∈ env.vec mt' → mt' = mt)
    (hend : 0 < (m0.heap a).exp.common.times.range.end_)
    (hpois : (m0.heap a).exp.common.mpoison = false) (sch : List (WSched V))
    (hmatch : ∀ act ∈ (wafter env m0 sch).cs.acts, act.meth = mt →
      (m0.heap a).exp.common.matcher.matches act.tid act.args = .ok true)
    (hfit : (m0.heap a).count + (wafter env m0 sch).cs.acts.length ≤ usizeMax) :
    SoleInv env m0 mt a (wafter env m0 sch).cs := by
  let M : CState V → Prop := fun s => ∀ act ∈ s.acts, act.meth = mt →
    (m0.heap a).exp.common.matcher.matches act.tid act.args = .ok true
  let P : WState V → Prop := fun s => WInv m0 s ∧
    (∀ (c : Nat) (act : Act V), s.cs.acts[c]? = some act → act.Within env) ∧
    (M s.cs → (m0.heap a).count + s.cs.acts.length ≤ usizeMax → SoleInv env m0 mt a s.cs)
  suffices hh : P (wafter env m0 sch) from hh.2.2 hmatch hfit
  refine WState.run_induct (P := P) ⟨WInv.init hq, by simp [WState.init], fun _ _ => ⟨by simp [WState.init], hpois⟩⟩
    ?_ ?_ ?_ ?_ sch
  · rintro t meth tid args ⟨hi, hw, ih⟩ _
    refine ⟨hi.start meth tid args, ?_, ?_⟩
    · intro c act hact
      simp only [acts_push] at hact
      split at hact
      · cases hact
        exact ⟨by simp [Act.start, Pc.addrs], by simp [Act.start]⟩
      · exact hw c act hact
    · intro hm hf
      simp only [List.length_append, List.length_cons, List.length_nil] at hf
      obtain ⟨h1, h2⟩ := ih (fun act hact => hm act (by simp [hact])) (by omega)
      refine ⟨?_, h2⟩
      intro c act hact hmt
      simp only [acts_push] at hact
      split at hact
      · cases hact
        left
        simp only [Act.start] at hmt ⊢
        rw [hmt, hvec]
      · exact h1 c act hact hmt
  · rintro t id act act' m' ⟨hi, hw, ih⟩ hact _ hs
    refine ⟨hi.moved hact hs, ?_, ?_⟩
    · intro c x hx
      rw [t.moved_cs] at hx
      simp only [acts_set hact] at hx
      split at hx
      · cases hx; exact hs.within (hw id act hact)
      · exact hw c x hx
    · rw [t.moved_cs]
      intro hm hf
      simp only [List.length_set] at hf
      have hm' := acts_set_forall (Q := fun me ti ar => me = mt →
        (m0.heap a).exp.common.matcher.matches ti ar = .ok true) hact hs.ident hm
      refine SoleInv.step hvec hown hend (ih hm' hf) hact (hi.base.coh id act hact)
        (hw id act hact) (hi.base.same a) (hi.base.count_room hact hf) ?_ hs
      intro hmt
      rw [(hi.base.same a).matcher]
      exact hm' act (List.mem_of_getElem? hact) hmt
  · rintro t id act act' l i v ⟨hi, hw, ih⟩ hact hr hv hle hs
    refine ⟨hi.load hact hr hv hle hs, ?_, ?_⟩
    · intro c x hx
      simp only [WState.learn, WState.move, acts_set hact] at hx
      split at hx
      · cases hx; exact hs.within (hw id act hact)
      · exact hw c x hx
    · intro hm hf
      simp only [WState.learn, WState.move, List.length_set] at hm hf
      have hm' := acts_set_forall (Q := fun me ti ar => me = mt →
        (m0.heap a).exp.common.matcher.matches ti ar = .ok true) hact hs.ident hm
      obtain ⟨h1, h2⟩ := ih hm' hf
      obtain ⟨c1, _, _, _, c5⟩ := t.cs.mem.pretend_cell l v a
      have hsm := c1.trans (hi.base.same a)
      have := SoleInv.step (t := ⟨t.cs.mem.pretend l v, t.cs.acts⟩) hvec hown hend
        ⟨h1, by rw [c5]; exact h2⟩ hact (hi.base.coh id act hact) (hw id act hact) hsm
        (fun hpc => absurd hpc ((hs.load_pc hr).2.2.2.2.2.1 a))
        (fun hmt => by rw [hsm.matcher]; exact hm' act (List.mem_of_getElem? hact) hmt) hs
      exact ⟨this.acts, h2⟩
  · rintro t u v ⟨hi, hw, ih⟩
    exact ⟨hi.synced u v, hw, ih⟩

/-- C74.  If a method has one expectation, which matches all calls, then exactly `min m max` of its `m`
calls get past the count check, and all others panic with the message that the expectation was called too
often. -/
theorem C74_exact (env : CEnv V) (m0 : Mem V) (hq : m0.Quiet) (sch : List (WSched V)) (mt a max : Nat)
    (hvec : env.vec mt = [a]) (hown : ∀ mt', a ∈ env.vec mt' → mt' = mt)
    (hmax : (m0.heap a).exp.common.times.range.end_ = max + 1)
    (hpois : (m0.heap a).exp.common.mpoison = false) (hzero : (m0.heap a).count = 0)
    (hmatch : ∀ act ∈ (wafter env m0 sch).cs.callsOf mt,
      (m0.heap a).exp.common.matcher.matches act.tid act.args = .ok true)
    (hfit : (wafter env m0 sch).cs.acts.length ≤ usizeMax)
    (hidle : (wafter env m0 sch).cs.Idle) :
    (((wafter env m0 sch).cs.callsOf mt).filter (·.passed)).length =
      min ((wafter env m0 sch).cs.callsOf mt).length max ∧
    ∀ act ∈ (wafter env m0 sch).cs.callsOf mt, act.passed = false →
      ∃ e, act.pc = .done (.error (.call (env.info mt).funcname
        (m0.heap a).exp.common.matcher.display e)) :=
  CInv.exact (winv_run env hq sch).base (wwithin_run env m0 sch)
    (wsole_run hq hvec hown (by omega) hpois sch
      (fun act hact hmt => hmatch act (by
        unfold CState.callsOf; exact List.mem_filter.mpr ⟨hact, by simp [hmt]⟩))
      (by rw [hzero, Nat.zero_add]; exact hfit)) hown hmax hzero hfit hidle

/-! ## Closures (C38) -/

/-- C74.  At every moment at most one call executes the return closure of an expectation. -/
theorem C74_exclusive (env : CEnv V) (m0 : Mem V) (hq : m0.Quiet) (sch : List (WSched V)) (a : Nat)
    (c d : Nat) (x y : Act V) (hc : (wafter env m0 sch).cs.acts[c]? = some x)
    (hd : (wafter env m0 sch).cs.acts[d]? = some y) (hx : x.inClosure a) (hy : y.inClosure a) :
    c = d := by
  have h := (winv_run env hq sch).base.locks
  have h1 := (h.r a c).mpr ⟨x, hc, by rw [hx]; rfl⟩
  have h2 := (h.r a d).mpr ⟨y, hd, by rw [hy]; rfl⟩
  rw [h1] at h2
  injection h2

/-- C74.  A `return_once` closure (known as `t`, and given to one expectation) runs at most once. -/
theorem C74_once (env : CEnv V) (m0 : Mem V) (sch : List (WSched V)) (a t : Nat)
    (honce : (m0.heap a).exp.ret.isOnce t)
    (honly : ∀ b, b ≠ a → (m0.heap b).exp.ret.tag? ≠ some t) (hnew : ∀ r ∈ m0.runs, r.tag ≠ t) :
    ((wafter env m0 sch).cs.mem.runs.filter fun r => r.tag == t).length ≤ 1 := by
  have h : OnceInv a t (wafter env m0 sch).cs.mem :=
    WState.run_induct (P := fun s => OnceInv a t s.cs.mem) (OnceInv.init honce honly hnew)
      (fun _ _ _ _ h _ => h)
      (fun t' _ _ _ _ h _ _ hs => by rw [t'.moved_cs]; exact h.step hs)
      (fun _ _ _ _ _ _ _ h _ _ _ _ _ => h) (fun _ _ _ h => h) sch
  exact h.le

/-- C74.  The runs of a `returning` closure form one sequence: each call answered by it got what the
closure yields for that call's arguments after some prefix of this sequence of runs, and the prefix is
followed by this very call's arguments. -/
theorem C74_history (env : CEnv V) (m0 : Mem V) (hq : m0.Quiet) (sch : List (WSched V)) (a t : Nat)
    (f : List (List V) → List V → Except Panic V)
    (hret : (m0.heap a).exp.ret = .static (.mut { run := f, tag := t }) false)
    (honly : ∀ b, b ≠ a → (m0.heap b).exp.ret.tag? ≠ some t) (hnew : ∀ r ∈ m0.runs, r.tag ≠ t)
    (act : Act V) (v : V) (hact : act ∈ (wafter env m0 sch).cs.acts) (hvia : act.via = some a)
    (hv : act.pc = .done (.ok v)) :
    ∃ before later, ((wafter env m0 sch).cs.mem.runs.filter fun r => r.tag == t).map (·.args) =
        before ++ act.args :: later ∧ f before act.args = .ok v := by
  let P : WState V → Prop := fun s => CInv m0 s.cs ∧ HistInv a t f s.cs
  have hh : P (wafter env m0 sch) := by
    refine WState.run_induct (P := P) ⟨CInv.init hq, HistInv.init hret honly hnew⟩
      (fun _ meth tid args h _ => ⟨h.1.start meth tid args, h.2.start meth tid args⟩)
      (fun t' id act _ _ h hact _ hs => ?_) ?_ (fun _ _ _ h => h) sch
    · change CInv m0 _ ∧ HistInv a t f _
      rw [t'.moved_cs]
      exact ⟨h.1.step hact hs, h.2.step (h.1.coh id act hact) hact hs⟩
    · rintro t' id x x' l i w ⟨hi, hh⟩ hx hr _ _ hs
      refine ⟨hi.load hx hr hs, hh.1, hh.2.1, ?_⟩
      intro c y hy hyv u hu
      simp only [WState.learn, WState.move, acts_set hx] at hy
      split at hy
      · cases hy
        exact absurd hu ((hs.load_pc hr).2.2.2.2.2.2 u)
      · exact hh.2.2 c y hy hyv u hu
  obtain ⟨c, hc⟩ := List.getElem?_of_mem hact
  exact hh.2.2.2 c act hc hvia v hv

/-! ## Sequences (C39) -/

theorem CSeqInv.load {env : CEnv V} {m0 : Mem V} {sid : Nat} (hf : m0.Fresh1 sid) {s : WState V}
    (hi : WInv m0 s) (hl : s.cs.acts.length ≤ usizeMax) (h0 : CSeqInv m0 sid s.cs) {id i v : Nat}
    {act act' : Act V} {l : Loc} (hact : s.cs.acts[id]? = some act)
    (hr : act.pc.reads s.cs.mem = some l) (hv : (s.hist l)[i]? = some v)
    (hle : s.view act.tid l ≤ i)
    (hs : Act.Step env id act (s.cs.mem.pretend l v) act' (s.cs.mem.pretend l v)) :
    CSeqInv m0 sid { s.cs with acts := s.cs.acts.set id act' } := by
  have ⟨h1, h2, h3, h4⟩ := h0
  have hcoh := hi.base.coh id act hact
  have hhandle : ∀ a k, m0.member sid a k → (s.cs.mem.heap a).exp.common.seqHandle = some ⟨sid, k⟩ :=
    fun a k hm => by rw [(hi.base.same a).handle]; exact hm
  have hps : ∀ b, ((s.cs.mem.pretend l v).heap b).Same (s.cs.mem.heap b) :=
    fun b => (s.cs.mem.pretend_cell l v b).1
  have hil : i < (s.hist l).length := by
    rcases Nat.lt_or_ge i (s.hist l).length with h' | h'
    · exact h'
    · rw [List.getElem?_eq_none h'] at hv; cases hv
  refine ⟨?_, ?_, ?_, ?_⟩
  · intro c x a k hx hm hv'
    simp only [acts_set hact] at hx
    split at hx
    next hc =>
      cases hx
      rcases (show act.pc = .verify a ∨ act.pc.verified = some a by
        rcases hs.load_cases hr with ⟨b, rest, hpc, ⟨p, ha⟩ | ha | ha⟩ | ⟨b, hpc, ⟨p, ha⟩ | ha⟩ | ⟨b, hpc, ha⟩ |
          ⟨b, hpc, ha⟩ | ⟨b, hpc, ha⟩ <;> simp_all [Act.goto, Pc.verified, Pc.reads]) with hpc | hpc
      · -- the level that was read is this member's place, and the sequence cannot have gone on
        have hd := hhandle a k hm
        obtain rfl : l = .lvl sid := by
          simp only [hpc, Pc.reads, hd, Option.map_some, Option.some.injEq] at hr
          exact hr.symm
        have hval := hi.lvl sid i v hv
        have hlev := hi.get_lvl sid
        have hvk : v = k := by
          rcases (hs.of_verify hpc).2 with ⟨p, _, ha⟩ | ⟨hok, _⟩
          · rw [ha] at hv'; simp [Act.goto, Pc.verified] at hv'
          · simp only [Common.verifySequence, (hps a).handle, hd, Seqs.verify] at hok
            split at hok
            next he => rw [he]; simp [Mem.pretend, Seqs.set]
            next => cases hok
        simp only [Act.Coh, hpc] at hcoh
        refine h0.turn hf hi.base hl hm ?_ hact hcoh.1 hcoh.2 (by rw [hpc]; rfl)
        omega
      · exact h1 id act a k hact hm hpc
    next hc => exact h1 c x a k hx hm hv'
  · intro c x a k low hx hm hv'
    simp only [acts_set hact] at hx
    split at hx
    next hc =>
      cases hx
      have hpc : act.pc = .loadLow a ∧ low = decide (((s.cs.mem.pretend l v).heap a).count ≥
          ((s.cs.mem.pretend l v).heap a).exp.common.times.range.start) := by
        rcases hs.load_cases hr with ⟨b, rest, hpc, ⟨p, ha⟩ | ha | ha⟩ | ⟨b, hpc, ⟨p, ha⟩ | ha⟩ | ⟨b, hpc, ha⟩ |
          ⟨b, hpc, ha⟩ | ⟨b, hpc, ha⟩
        case inr.inr.inl =>
          rw [ha] at hv'
          simp only [Act.goto, Pc.loadHigh.injEq] at hv'
          obtain ⟨rfl, hv'⟩ := hv'
          exact ⟨hpc, hv'.symm⟩
        all_goals
          rw [ha] at hv'
          simp [Act.goto] at hv'
      obtain ⟨hpc, hv'⟩ := hpc
      simp only [Act.Coh, hpc] at hcoh
      obtain rfl : l = .cnt a := by
        simp only [hpc, Pc.reads, Option.some.injEq] at hr
        exact hr.symm
      have hown := hi.own id act a hact (by simp [Act.counted, hpc, hcoh.1])
      have hval := hi.cnt a i v hv
      have hlen := hi.len a
      have hle' := List.countP_le_length (p := Act.counted a) (l := s.cs.acts)
      rw [hf.zero a k hm, Nat.zero_add, Nat.mod_eq_of_lt (by omega)] at hval
      rw [hv']
      simp only [decide_eq_true_eq]
      have hr1 := (hps a).range.trans (hi.base.same a).range
      rw [hf.one a k hm] at hr1
      have hr2 : ((s.cs.mem.pretend (.cnt a) v).heap a).count = v := by
        have := s.cs.mem.pretend_get (.cnt a) (.cnt a) v
        simpa [Mem.get] using this
      rw [hr1, hr2]
      simp only
      omega
    next hc => exact h2 c x a k low hx hm hv'
  · intro c x a k hx hm hvia hlate
    simp only [acts_set hact] at hx
    split at hx
    next hc =>
      cases hx
      have hpc : act.pc = .loadHigh a false := by
        rcases hs.load_cases hr with ⟨b, rest, hpc, ⟨p, ha⟩ | ha | ha⟩ | ⟨b, hpc, ⟨p, ha⟩ | ha⟩ | ⟨b, hpc, ha⟩ |
          ⟨b, hpc, ha⟩ | ⟨b, hpc, ha⟩ <;>
          simp_all [Act.goto, Pc.late, Act.Coh, Pc.reads]
      exact absurd (h2 id act a k false hact hm hpc) (by simp)
    next hc => exact h3 c x a k hx hm hvia hlate
  · intro a k hm hlt
    obtain ⟨c, x, hx, hxv, hxp, hxe⟩ := h4 a k hm hlt
    by_cases hc : c = id
    · subst hc
      rw [hact] at hx; cases hx
      exfalso
      simp only [Act.Coh] at hcoh
      cases hpc : act.pc <;> simp_all [Pc.reads, Pc.early]
    · exact ⟨c, x, by simp [acts_set hact, hc, hx], hxv, hxp, hxe⟩

/-- The invariants behind C39, and: a thread whose call has told the sequence knows of that. -/
structure WSeqInv (m0 : Mem V) (sid : Nat) (s : WState V) : Prop where
  base : CSeqInv m0 sid s.cs
  told : ∀ (c : Nat) (act : Act V) (a k : Nat), s.cs.acts[c]? = some act → m0.member sid a k →
    act.via = some a → act.pc.late = true → k < s.view act.tid (.lvl sid)

theorem WSeqInv.init {m0 : Mem V} {sid : Nat} (hf : m0.Fresh1 sid) : WSeqInv m0 sid (WState.init m0) :=
  ⟨CSeqInv.init hf, by simp [WState.init]⟩

theorem WSeqInv.start {env : CEnv V} {m0 : Mem V} {sid : Nat} {s : WState V} (h : WSeqInv m0 sid s)
    (meth tid : Nat) (args : List V) :
    WSeqInv m0 sid
      { s with cs := { s.cs with acts := s.cs.acts ++ [Act.start env meth tid args] } } := by
  refine ⟨h.base.start meth tid args, ?_⟩
  intro c act a k hact hm hv
  simp only [acts_push] at hact
  split at hact
  · cases hact; simp [Act.start] at hv
  · exact h.told c act a k hact hm hv

theorem WSeqInv.synced {m0 : Mem V} {sid : Nat} {s : WState V} (h : WSeqInv m0 sid s) (u v : Nat) :
    WSeqInv m0 sid (s.synced u v) := by
  refine ⟨h.base, ?_⟩
  intro c act a k hact hm hv hl
  have := h.told c act a k hact hm hv hl
  simp only [WState.synced]
  split
  next ht => rw [← ht]; omega
  · exact this

theorem WSeqInv.moved {env : CEnv V} {m0 : Mem V} {sid : Nat} (hf : m0.Fresh1 sid) {s : WState V}
    (hi : WInv m0 s) (hl : s.cs.acts.length ≤ usizeMax) (h : WSeqInv m0 sid s) {id : Nat}
    {act act' : Act V} {m' : Mem V} (hact : s.cs.acts[id]? = some act)
    (hs : Act.Step env id act s.cs.mem act' m') (hnr : act.pc.reads s.cs.mem = none) :
    WSeqInv m0 sid (s.moved id act act' m') := by
  have hb := h.base.step hf hi.base hl hact hs
  refine ⟨by rw [s.moved_cs]; exact hb, ?_⟩
  have hmono : ∀ t k, s.view t k ≤ (s.moved id act act' m').view t k := by
    intro t k
    have := hi.bound t k
    rw [s.moved_view]
    split <;> omega
  intro c x a k hx hm hvia hlate
  rw [s.moved_cs] at hx
  simp only [acts_set hact] at hx
  split at hx
  next hc =>
    cases hx
    have hcoh := hi.base.coh id act hact
    rw [hs.ident.2.1]
    have hwas : act.pc.late = true ∧ act.via = some a ∨ act.pc = .satisfy a := by
      cases hs <;> simp_all [Act.goto, Pc.late, Act.Coh, Pc.reads]
    rcases hwas with ⟨w1, w2⟩ | w
    · exact Nat.lt_of_lt_of_le (h.told id act a k hact hm w2 w1) (hmono _ _)
    · have hd : (s.cs.mem.heap a).exp.common.seqHandle = some ⟨sid, k⟩ := by
        rw [(hi.base.same a).handle]; exact hm
      have hlv := h.base.verified id act a k hact hm (by rw [w]; rfl)
      have hg := hi.get_lvl sid
      rw [hf.level] at hg
      have hp := hi.bound 0 (.lvl sid)
      rw [s.moved_view]
      simp only [w, Pc.writes, hd, Option.map_some, and_self, if_true]
      omega
  next hc => exact Nat.lt_of_lt_of_le (h.told c x a k hx hm hvia hlate) (hmono _ _)

theorem WSeqInv.load {env : CEnv V} {m0 : Mem V} {sid : Nat} (hf : m0.Fresh1 sid) {s : WState V}
    (hi : WInv m0 s) (hl : s.cs.acts.length ≤ usizeMax) (h : WSeqInv m0 sid s) {id i v : Nat}
    {act act' : Act V} {l : Loc} (hact : s.cs.acts[id]? = some act)
    (hr : act.pc.reads s.cs.mem = some l) (hv : (s.hist l)[i]? = some v)
    (hle : s.view act.tid l ≤ i)
    (hs : Act.Step env id act (s.cs.mem.pretend l v) act' (s.cs.mem.pretend l v)) :
    WSeqInv m0 sid ((s.move id act' s.cs.mem).learn act.tid l i) := by
  refine ⟨h.base.load hf hi hl hact hr hv hle hs, ?_⟩
  have hmono : ∀ t k, s.view t k ≤ ((s.move id act' s.cs.mem).learn act.tid l i).view t k := by
    intro t k
    simp only [WState.learn, WState.move]
    split
    next ht => obtain ⟨rfl, rfl⟩ := ht; exact hle
    · omega
  intro c x a k hx hm hvia hlate
  simp only [WState.learn, WState.move, acts_set hact] at hx
  split at hx
  next hc =>
    cases hx
    have hcoh := hi.base.coh id act hact
    have hpc : act.pc = .loadHigh a false := by
      rcases hs.load_cases hr with ⟨b, rest, hpc, ⟨p, ha⟩ | ha | ha⟩ | ⟨b, hpc, ⟨p, ha⟩ | ha⟩ | ⟨b, hpc, ha⟩ |
        ⟨b, hpc, ha⟩ | ⟨b, hpc, ha⟩ <;>
        simp_all [Act.goto, Pc.late, Act.Coh, Pc.reads]
    exact absurd (h.base.low id act a k false hact hm hpc) (by simp)
  next hc => exact Nat.lt_of_lt_of_le (h.told c x a k hx hm hvia hlate) (hmono _ _)

theorem wseqInv_run {env : CEnv V} {m0 : Mem V} (hq : m0.Quiet) {sid : Nat} (hf : m0.Fresh1 sid)
    (sch : List (WSched V)) (hfit : (wafter env m0 sch).cs.acts.length ≤ usizeMax) :
    WSeqInv m0 sid (wafter env m0 sch) := by
  let P : WState V → Prop := fun s => WInv m0 s ∧ (s.cs.acts.length ≤ usizeMax → WSeqInv m0 sid s)
  suffices hh : P (wafter env m0 sch) from hh.2 hfit
  refine WState.run_induct (P := P) ⟨WInv.init hq, fun _ => WSeqInv.init hf⟩ ?_ ?_ ?_ ?_ sch
  · rintro s meth tid args ⟨hi, ih⟩ _
    refine ⟨hi.start meth tid args, fun hl => ?_⟩
    simp only [List.length_append, List.length_cons, List.length_nil] at hl
    exact (ih (by omega)).start meth tid args
  · rintro s id act act' m' ⟨hi, ih⟩ hact hr hs
    refine ⟨hi.moved hact hs, fun hl => ?_⟩
    rw [s.moved_cs] at hl
    simp only [List.length_set] at hl
    exact (ih hl).moved hf hi hl hact hs hr
  · rintro s id act act' l i v ⟨hi, ih⟩ hact hr hv hle hs
    refine ⟨hi.load hact hr hv hle hs, fun hl => ?_⟩
    simp only [WState.learn, WState.move, List.length_set] at hl
    exact (ih hl).load hf hi hl hact hr hv hle hs
  · rintro s u v ⟨hi, ih⟩
    exact ⟨hi.synced u v, fun hl => (ih hl).synced u v⟩

/-- C74.  In a sequence of `times(1)` expectations: when a call to member number `k` has returned, every
earlier member has had its call. -/
theorem C74_order (env : CEnv V) (m0 : Mem V) (hq : m0.Quiet) (sid : Nat) (hf : m0.Fresh1 sid)
    (sch : List (WSched V)) (hfit : (wafter env m0 sch).cs.acts.length ≤ usizeMax)
    (act : Act V) (hact : act ∈ (wafter env m0 sch).cs.acts) (a k : Nat) (hm : m0.member sid a k)
    (hvia : act.via = some a) (v : V) (hv : act.pc = .done (.ok v))
    (b j : Nat) (hj : m0.member sid b j) (hjk : j < k) :
    ∃ x ∈ (wafter env m0 sch).cs.acts, x.via = some b ∧ x.passed = true := by
  have h := (wseqInv_run hq hf sch hfit).base
  obtain ⟨c, hc⟩ := List.getElem?_of_mem hact
  have hlt := h.late c act a k hc hm hvia (by rw [hv]; rfl)
  obtain ⟨d, x, hx, h1, h2, _⟩ := h.passed b j hj (by omega)
  exact ⟨x, List.mem_of_getElem? hx, h1, h2⟩

theorem wret_run {env : CEnv V} {m0 : Mem V} (hq : m0.Quiet) (sch : List (WSched V)) (a : Nat) :
    ((wafter env m0 sch).cs.mem.heap a).exp.ret = (m0.heap a).exp.ret ∨ ∃ (c : Nat) (x : Act V),
      (wafter env m0 sch).cs.acts[c]? = some x ∧ x.via = some a ∧ x.passed = true ∧
      x.pc.ran = true := by
  let R : CState V → Prop := fun s => (s.mem.heap a).exp.ret = (m0.heap a).exp.ret ∨
    ∃ (c : Nat) (x : Act V), s.acts[c]? = some x ∧ x.via = some a ∧ x.passed = true ∧ x.pc.ran = true
  let P : WState V → Prop := fun s => CInv m0 s.cs ∧ R s.cs
  suffices hh : P (wafter env m0 sch) from hh.2
  have later : ∀ (acts : List (Act V)) (id : Nat) (act act' : Act V) (m m' : Mem V), act.Coh →
      acts[id]? = some act → Act.Step env id act m act' m' →
      (∃ (c : Nat) (x : Act V), acts[c]? = some x ∧ x.via = some a ∧ x.passed = true ∧
        x.pc.ran = true) →
      ∃ (c : Nat) (x : Act V), (acts.set id act')[c]? = some x ∧ x.via = some a ∧ x.passed = true ∧
        x.pc.ran = true := by
    rintro acts id act act' m m' hcoh hact hs ⟨c, x, hx, hv, hp, hr⟩
    by_cases hc : c = id
    · subst hc
      rw [hact] at hx; cases hx
      have hk := hs.keep hcoh hp
      exact ⟨c, act', by simp [acts_set hact], by rw [hk.2]; exact hv, hk.1, hs.ran hr⟩
    · exact ⟨c, x, by simp [acts_set hact, hc, hx], hv, hp, hr⟩
  refine WState.run_induct (P := P) ⟨CInv.init hq, .inl rfl⟩ ?_ ?_ ?_ (fun _ _ _ h => h) sch
  · rintro s meth tid args ⟨hi, ih⟩ _
    refine ⟨hi.start meth tid args, ih.imp id ?_⟩
    rintro ⟨c, x, hx, h⟩
    refine ⟨c, x, ?_, h⟩
    simp only [acts_push]
    rw [if_neg, hx]
    intro hc
    rw [hc, List.getElem?_eq_none (Nat.le_refl _)] at hx
    cases hx
  · rintro s id act act' m' ⟨hi, ih⟩ hact _ hs
    change CInv m0 _ ∧ R _
    rw [s.moved_cs]
    have hcoh := hi.coh id act hact
    refine ⟨hi.step hact hs, ?_⟩
    rcases hs.retKept hcoh a with h | ⟨h1, h2, h3⟩
    · rcases ih with ih | ih
      · exact .inl (h.trans ih)
      · exact .inr (later _ _ _ _ _ _ hcoh hact hs ih)
    · right
      have hk := hs.keep hcoh h3
      exact ⟨id, act', by simp [acts_set hact], by rw [hk.2]; exact h2, hk.1, h1⟩
  · rintro s id act act' l i v ⟨hi, ih⟩ hact hr _ _ hs
    exact ⟨hi.load hact hr hs, ih.imp (fun h => h) (later _ _ _ _ _ _ (hi.coh id act hact) hact hs)⟩

/-- C74.  In a sequence of `times(1)` expectations, let the calls to all members before number `k` have
returned, and let them happen before the start of a call.  If it is the call that member `k` accepts
(matched and within its count), then it is never rejected: when it is over it has returned a value
(supposing the closure given to member `k` returns one).  Without `Hb` this is false, see
`C74_unsynchronised_sequence`. -/
theorem C74_accept (env : CEnv V) (m0 : Mem V) (hq : m0.Quiet) (sid : Nat) (hf : m0.Fresh1 sid)
    (pre post : List (WSched V)) (mt tid : Nat) (args : List V) (a k : Nat) (hm : m0.member sid a k)
    (hfree : (wafter env m0 pre).cs.threadFree tid)
    (hbefore : ∀ j, j < k → ∃ b, m0.member sid b j ∧
      ∃ earlier since, pre = earlier ++ since ∧
        ∃ x ∈ (wafter env m0 earlier).cs.acts, x.via = some b ∧ (∃ v, x.pc = .done (.ok v)) ∧
          Hb since x.tid tid)
    (hans : (m0.heap a).exp.Answers env.nightly (env.info mt).default tid args)
    (hfit : (wafter env m0 (pre ++ .start mt tid args :: post)).cs.acts.length ≤ usizeMax)
    (act : Act V)
    (hact : (wafter env m0 (pre ++ .start mt tid args :: post)).cs.acts[
      (wafter env m0 pre).cs.acts.length]? = some act)
    (hvia : act.via = some a) (hpass : act.passed = true) (hfin : act.finished = true) :
    ∃ v, act.pc = .done (.ok v) := by
  let id := (wafter env m0 pre).cs.acts.length
  let Q : WState V → Prop := fun s =>
    WSeqInv m0 sid s ∧ k ≤ s.view tid (.lvl sid) ∧ AcceptInv m0 a id mt tid args s.cs
  let P : WState V → Prop := fun s => id < s.cs.acts.length ∧ WInv m0 s ∧
    (s.cs.acts.length ≤ usizeMax → Q s)
  suffices hh : P (wafter env m0 (pre ++ .start mt tid args :: post)) by
    rcases ((hh.2.2 hfit).2.2.2 act hact).2.2.2 hvia hpass with h | h | h | h
    · unfold Act.finished at hfin
      cases hpc : act.pc <;> simp [hpc, Pc.early] at h hfin
    · simp [Act.finished, h] at hfin
    · simp [Act.finished, h] at hfin
    · exact h
  let s1 : WState V := { wafter env m0 pre with cs := { (wafter env m0 pre).cs with
    acts := (wafter env m0 pre).cs.acts ++ [Act.start env mt tid args] } }
  have hrun : wafter env m0 (pre ++ .start mt tid args :: post) = s1.run env post := by
    rw [wafter_append]
    show ((wafter env m0 pre).step env (.start mt tid args)).run env post = s1.run env post
    congr 1
    simp only [WState.step, CState.step, s1]
    rw [if_pos]
    rw [List.all_eq_true]
    intro x hx
    have := hfree x hx
    simpa using this
  rw [hrun]
  -- the level of a sequence is the number of values since the start
  have hlevel : ∀ s : WState V, WInv m0 s → k ≤ s.view tid (.lvl sid) →
      k ≤ (s.cs.mem.seqs sid).level := by
    intro s hi hk
    have := hi.get_lvl sid
    have := hi.bound tid (.lvl sid)
    omega
  refine WState.run_induct (P := P) ?_ ?_ ?_ ?_ ?_ post
  · have hi := winv_run env hq pre
    refine ⟨by simp [id, s1], hi.start mt tid args, fun hl => ?_⟩
    simp only [s1, List.length_append, List.length_cons, List.length_nil] at hl
    have hsi := wseqInv_run (env := env) hq hf pre (by omega)
    refine ⟨hsi.start mt tid args, ?_, ?_, ?_⟩
    · rcases Nat.eq_zero_or_pos k with h0 | hpos
      · omega
      · obtain ⟨b, hb, earlier, since, hpre, x, hx, hxv, ⟨v, hxd⟩, hhb⟩ := hbefore (k - 1) (by omega)
        obtain ⟨c, hc⟩ := List.getElem?_of_mem hx
        have hi1 := winv_run env hq earlier
        have hlen : (wafter env m0 earlier).cs.acts.length ≤ (wafter env m0 pre).cs.acts.length := by
          rw [hpre, wafter_append]
          refine WState.run_induct (P := fun s => (wafter env m0 earlier).cs.acts.length ≤
            s.cs.acts.length) (Nat.le_refl _) ?_ ?_ ?_ ?_ since
          · intro t _ _ _ h _; simp; omega
          · intro t _ _ _ _ h _ _ _; rw [t.moved_cs]; simpa using h
          · intro t _ _ _ _ _ _ h _ _ _ _ _; simpa [WState.learn, WState.move] using h
          · intro t _ _ h; exact h
        have hsi1 := wseqInv_run (env := env) hq hf earlier (by omega)
        have h1 := hsi1.told c x b (k - 1) hc hb hxv (by rw [hxd]; rfl)
        have h2 := hhb.view (env := env) hi1 (.lvl sid)
        change (wafter env m0 earlier).view x.tid (.lvl sid) ≤
          ((wafter env m0 earlier).run env since).view tid (.lvl sid) at h2
        rw [← wafter_append, ← hpre] at h2
        show k ≤ (wafter env m0 pre).view tid (.lvl sid)
        omega
    · refine (wret_run hq pre a).imp (fun h => h) ?_
      rintro ⟨c, x, hx, h⟩
      refine ⟨c, x, ?_, h⟩
      simp only [s1, acts_push]
      rw [if_neg, hx]
      intro hc
      rw [hc, List.getElem?_eq_none (Nat.le_refl _)] at hx
      cases hx
    · intro y hy
      simp only [s1, acts_push, id] at hy
      rw [if_pos trivial] at hy
      cases hy
      simp [Act.start]
  · rintro s meth tid' args' ⟨hid, hi, ih⟩ _
    refine ⟨by simp; omega, hi.start meth tid' args', fun hl => ?_⟩
    simp only [List.length_append, List.length_cons, List.length_nil] at hl
    obtain ⟨q1, q2, q3⟩ := ih (by omega)
    exact ⟨q1.start meth tid' args', q2, q3.start hid meth tid' args'⟩
  · rintro s i x x' m' ⟨hid, hi, ih⟩ hx hr hs
    refine ⟨by rw [s.moved_cs]; simpa using hid, hi.moved hx hs, fun hl => ?_⟩
    rw [s.moved_cs] at hl
    simp only [List.length_set] at hl
    obtain ⟨q1, q2, q3⟩ := ih hl
    refine ⟨q1.moved hf hi hl hx hs hr, ?_, ?_⟩
    · have := hi.bound tid (.lvl sid)
      rw [s.moved_view]
      split <;> omega
    · rw [s.moved_cs]
      exact q3.step hf hm (fun _ => hans) hi.base q1.base hl (hlevel s hi q2) hx hs
  · rintro s i x x' l n v ⟨hid, hi, ih⟩ hx hr hv hle hs
    refine ⟨by simpa [WState.learn, WState.move] using hid, hi.load hx hr hv hle hs, fun hl => ?_⟩
    simp only [WState.learn, WState.move, List.length_set] at hl
    obtain ⟨q1, q2, q3, q4⟩ := ih hl
    have hcoh := hi.base.coh i x hx
    refine ⟨q1.load hf hi hl hx hr hv hle hs, ?_, ?_, ?_⟩
    · simp only [WState.learn, WState.move]
      split
      next ht => obtain ⟨h1, h2⟩ := ht; rw [h1, h2] at q2; omega
      · exact q2
    · refine q3.imp (fun h => h) ?_
      rintro ⟨c, z, hz, hzv, hzp, hzr⟩
      simp only [WState.learn, WState.move]
      by_cases hc : c = i
      · subst hc
        rw [hx] at hz; cases hz
        have hk := hs.keep hcoh hzp
        exact ⟨c, x', by simp [acts_set hx], by rw [hk.2]; exact hzv, hk.1, hs.ran hzr⟩
      · exact ⟨c, z, by simp [acts_set hx, hc, hz], hzv, hzp, hzr⟩
    · intro y hy
      simp only [WState.learn, WState.move, acts_set hx] at hy
      split at hy
      next hc =>
        subst hc
        cases hy
        obtain ⟨e1, e2, e3, e4⟩ := q4 x hx
        obtain ⟨i1, i2, i3⟩ := hs.ident
        refine ⟨by rw [i1, e1], by rw [i2, e2], by rw [i3, e3], ?_⟩
        intro hyv hyp
        have hd : (s.cs.mem.heap a).exp.common.seqHandle = some ⟨sid, k⟩ := by
          rw [(hi.base.same a).handle]; exact hm
        have hpa : x.passed = true := by rw [← (hs.load_pc hr).2.2.2.2.1]; exact hyp
        have hva : x.via = some a := by rw [← (hs.keep hcoh hpa).2]; exact hyv
        rcases (show x.pc = .verify a ∨ x.pc = .loadLow a ∨ (∃ low, x.pc = .loadHigh a low) by
          simp only [Act.Coh] at hcoh
          cases hpc : x.pc <;> simp_all [Pc.reads]) with hpc | hpc | ⟨low, hpc⟩
        · rcases (hs.of_verify hpc).2 with ⟨p, hp, ha⟩ | ⟨_, ha⟩
          · exfalso
            have hl' := q1.base.turn hf hi.base hl hm (hlevel s hi q2) hx hva hpa (by rw [hpc]; rfl)
            obtain rfl : l = .lvl sid := by
              simp only [hpc, Pc.reads, hd, Option.map_some, Option.some.injEq] at hr
              exact hr.symm
            have hil : n < (s.hist (.lvl sid)).length := by
              rcases Nat.lt_or_ge n (s.hist (.lvl sid)).length with h' | h'
              · exact h'
              · rw [List.getElem?_eq_none h'] at hv; cases hv
            have h5 := hi.lvl sid n v hv
            have h6 := hi.get_lvl sid
            rw [hf.level] at h5 h6
            rw [e2] at hle
            have hvk : v = k := by omega
            subst hvk
            have hsm := (s.cs.mem.pretend_cell (.lvl sid) v a).1.handle
            simp [Common.verifySequence, hsm, hd, Seqs.verify, Mem.pretend, Seqs.set] at hp
          · left; rw [ha]; rfl
        · left
          rcases hs.load_cases hr with ⟨b, rest, hpc, ⟨p, ha⟩ | ha | ha⟩ | ⟨b, hpc, ⟨p, ha⟩ | ha⟩ | ⟨b, hpc, ha⟩ |
            ⟨b, hpc, ha⟩ | ⟨b, hpc, ha⟩ <;>
            simp_all [Act.goto, Pc.early]
        · cases low
          · exact absurd (q1.base.low _ x a k false hx hm hpc) (by simp)
          · left
            rcases hs.load_cases hr with ⟨b, rest, hpc, ⟨p, ha⟩ | ha | ha⟩ | ⟨b, hpc, ⟨p, ha⟩ | ha⟩ | ⟨b, hpc, ha⟩ |
            ⟨b, hpc, ha⟩ | ⟨b, hpc, ha⟩ <;>
            simp_all [Act.goto, Pc.early]
      next hc => exact q4 y hy
  · rintro s u v ⟨hid, hi, ih⟩
    refine ⟨hid, hi.synced u v, fun hl => ?_⟩
    obtain ⟨q1, q2, q3⟩ := ih hl
    refine ⟨q1.synced u v, ?_, q3⟩
    simp only [WState.synced]
    split
    next ht => rw [ht] at q2; omega
    · exact q2

end Mockall
