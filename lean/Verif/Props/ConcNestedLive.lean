import Verif.Lemmas.ConcNestedStack

/-! # When user code that calls mocks gets stuck (C75)

User code runs while a lock of its expectation is held: a predicate under the lock of the matcher, a return
closure under the lock of the return function.  So calls made by user code can wait for each other.  They
never do if user code only calls methods all of whose expectations are "lower" than its own; and a call
that needs the lock its own thread holds waits forever. -/

set_option linter.unusedSimpArgs false

namespace Mockall

variable {V : Type}

/-! ## Without cycles there is no deadlock -/

/-- In this schedule user code only calls downwards: when thread `tid` calls method `mt` from user code of
expectation `a`, all expectations of `mt` have lower rank than `a`. -/
def Ranked (env : CEnv V) (m0 : Mem V) (rank : Nat → Nat) (sch : List (NSched V)) : Prop :=
  ∀ (pre post : List (NSched V)) (mt tid : Nat) (args : List V), sch = pre ++ .start mt tid args :: post →
    ∀ (c : Nat) (x : Act V), (nafter env m0 pre).acts[c]? = some x → x.finished = false →
      x.tid = tid → (nafter env m0 pre).innermost c tid = true →
      ∀ a, x.user (nafter env m0 pre).mem = some a → ∀ b ∈ env.vec mt, rank b < rank a

theorem ninv_ranked {env : CEnv V} {m0 : Mem V} (hq : m0.Quiet) {rank : Nat → Nat}
    {sch : List (NSched V)} (hr : Ranked env m0 rank sch) : NInv env m0 rank (nafter env m0 sch) := by
  refine prefix_induct (fun l => NInv env m0 rank (nafter env m0 l)) sch ?_ ?_
  · exact ⟨CInv.init hq, by simp [nafter, CState.nrun, StaticInv], by simp [nafter, CState.nrun],
      by simp [nafter, CState.nrun]⟩
  · intro pre x post hsch ih
    have hn : nafter env m0 (pre ++ [x]) = (nafter env m0 pre).nstep env x := by
      rw [nafter_append]; rfl
    rw [hn]
    cases x with
    | start meth tid args =>
      simp only [CState.nstep]
      split
      next hc => exact ih.start hc (hr pre post meth tid args hsch)
      · exact ih
    | step id ans =>
      simp only [CState.nstep]
      split
      · exact ih
      next act hact =>
        split
        next hin =>
          split
          · exact ih
          next r hst => exact ih.step hact hin (Act.step_rel hst)
        · exact ih

/-- Call number `c` is the innermost of its thread and can make a step, whatever its user code answers. -/
def CState.mayStep (env : CEnv V) (s : CState V) (c : Nat) : Prop :=
  ∃ act, s.acts[c]? = some act ∧ s.innermost c act.tid = true ∧
    ∀ ans, ∃ r, act.step env c (s.mem.scripted ans) = some r

/-- What an innermost call waits for, if it cannot go on. -/
theorem NInv.waits {env : CEnv V} {m0 : Mem V} {rank : Nat → Nat} {s : CState V}
    (h : NInv env m0 rank s) {c : Nat} {act : Act V} (hact : s.acts[c]? = some act)
    (hf : act.finished = false) (hin : s.innermost c act.tid = true) :
    s.mayStep env c ∨
    (∃ a d, a ∈ act.pc.addrs ∧ (s.mem.heap a).mheld = some d ∧ act.pc.holdsM = none) ∨
    (∃ a d, act.pc = .ret a ∧ (s.mem.heap a).rheld = some d) := by
  by_cases hm : ∀ ans, ∃ r, act.step env c (s.mem.scripted ans) = some r
  · exact .inl ⟨act, hact, hin, hm⟩
  · right
    simp only [Classical.not_forall] at hm
    obtain ⟨ans, hm⟩ := hm
    have hnone : act.step env c (s.mem.scripted ans) = none := by
      cases hst : act.step env c (s.mem.scripted ans) with
      | none => rfl
      | some r => exact absurd ⟨r, hst⟩ hm
    rcases Act.step_none hnone with h' | ⟨a, d, ha, hh, hn⟩ | ⟨a, d, _, _, hpc, hh, _⟩ | ⟨a, ha, hn⟩
    · rw [hf] at h'; cases h'
    · exact .inl ⟨a, d, ha, hh, hn⟩
    · exact .inr ⟨a, d, hpc, hh⟩
    · obtain ⟨r, p, hret⟩ := h.static c act hact a ha
      exact absurd (by simp [Mem.scripted, Cell.scripted, hret, Ret.scripted])
        (hn (r.scripted ans.value) p)

theorem NInv.progress {env : CEnv V} {m0 : Mem V} {rank : Nat → Nat} {s : CState V}
    (h : NInv env m0 rank s) (hbusy : ¬ s.Idle) : ∃ c, s.mayStep env c := by
  -- the holder of a lock, or a call nested in it, can go on
  have key : ∀ n a d, ((s.mem.heap a).mheld = some d ∧ n = 2 * rank a) ∨
      ((s.mem.heap a).rheld = some d ∧ n = 2 * rank a + 1) → ∃ c, s.mayStep env c := by
    intro n
    induction n using Nat.strongRecOn with
    | _ n ih =>
      intro a d hd
      -- the holder
      have hold : ∃ y, s.acts[d]? = some y ∧
          ((∃ rest, y.pc = .matching a rest) ∨ (n = 2 * rank a + 1 ∧ y.pc.holdsR = some a)) := by
        rcases hd with ⟨hd, hn⟩ | ⟨hd, hn⟩
        · obtain ⟨y, hy, hh⟩ := (h.base.locks.m a d).mp hd
          refine ⟨y, hy, .inl ?_⟩
          cases hpc : y.pc <;> simp [hpc, Pc.holdsM] at hh
          subst hh; exact ⟨_, rfl⟩
        · obtain ⟨y, hy, hh⟩ := (h.base.locks.r a d).mp hd
          exact ⟨y, hy, .inr ⟨hn, hh⟩⟩
      have hn2 : 2 * rank a ≤ n := by rcases hd with ⟨_, h⟩ | ⟨_, h⟩ <;> omega
      obtain ⟨y, hy, hpos⟩ := hold
      have hfy : y.finished = false := by
        rcases hpos with ⟨rest, hpc⟩ | ⟨_, hR⟩
        · simp [Act.finished, hpc]
        · cases hpc : y.pc <;> simp [hpc, Pc.holdsR] at hR <;> simp [Act.finished, hpc]
      obtain ⟨k, z, hdk, hz, hfz, htz, hin⟩ := innermost_exists hy hfy
      rw [← htz] at hin
      rcases h.waits hz hfz hin with hgo | ⟨b, e, hb, hw, hnM⟩ | ⟨b, e, hpc, hw⟩
      · exact ⟨k, hgo⟩
      · -- it waits for the matcher of `b`
        by_cases hkd : k = d
        · subst hkd
          rw [hy] at hz; cases hz
          rcases hpos with ⟨rest, hpc⟩ | ⟨hn, hR⟩
          · simp [hpc, Pc.holdsM] at hnM
          · have : b = a := by
              cases hpc : y.pc <;> simp [hpc, Pc.holdsR] at hR <;> simp [hpc, Pc.addrs] at hb <;>
                rw [hb, hR]
            subst this
            exact ih (2 * rank b) (by omega) b e (.inl ⟨hw, rfl⟩)
        · obtain ⟨a', ha', hlow⟩ := h.stack d k y z hy hz (by omega) htz.symm hfy hfz
          have haa : a' = a := by
            rcases Act.user_holds ha' with ⟨rest, hpc⟩ | hpc
            · rcases hpos with ⟨rest', hpc'⟩ | ⟨_, hR⟩
              · rw [hpc] at hpc'; cases hpc'; rfl
              · simp [hpc, Pc.holdsR] at hR
            · rcases hpos with ⟨rest', hpc'⟩ | ⟨_, hR⟩
              · rw [hpc] at hpc'; cases hpc'
              · simp [hpc, Pc.holdsR] at hR; exact hR
          subst haa
          have := hlow b ((h.within k z hz).pc b hb)
          exact ih (2 * rank b) (by omega) b e (.inl ⟨hw, rfl⟩)
      · -- it waits for the return function of `b`
        by_cases hkd : k = d
        · subst hkd
          rw [hy] at hz; cases hz
          rcases hpos with ⟨rest, hpc'⟩ | ⟨hn, hR⟩
          · rw [hpc] at hpc'; cases hpc'
          · simp [hpc, Pc.holdsR] at hR
        · obtain ⟨a', ha', hlow⟩ := h.stack d k y z hy hz (by omega) htz.symm hfy hfz
          have haa : a' = a := by
            rcases Act.user_holds ha' with ⟨rest, hpc⟩ | hpc
            · rcases hpos with ⟨rest', hpc'⟩ | ⟨_, hR⟩
              · rw [hpc] at hpc'; cases hpc'; rfl
              · simp [hpc, Pc.holdsR] at hR
            · rcases hpos with ⟨rest', hpc'⟩ | ⟨_, hR⟩
              · rw [hpc] at hpc'; cases hpc'
              · simp [hpc, Pc.holdsR] at hR; exact hR
          subst haa
          have := hlow b ((h.within k z hz).pc b (by simp [hpc, Pc.addrs]))
          exact ih (2 * rank b + 1) (by omega) b e (.inr ⟨hw, rfl⟩)
  have : ∃ act ∈ s.acts, act.finished = false := by
    unfold CState.Idle at hbusy
    simp only [Classical.not_forall, not_imp] at hbusy
    obtain ⟨act, hact, h⟩ := hbusy
    exact ⟨act, hact, by simpa using h⟩
  obtain ⟨act, hmem, hf⟩ := this
  obtain ⟨c, hact⟩ := List.getElem?_of_mem hmem
  obtain ⟨k, z, _, hz, hfz, htz, hin⟩ := innermost_exists hact hf
  rw [← htz] at hin
  rcases h.waits hz hfz hin with hgo | ⟨b, e, _, hw, _⟩ | ⟨b, e, _, hw⟩
  · exact ⟨k, hgo⟩
  · exact key _ b e (.inl ⟨hw, rfl⟩)
  · exact key _ b e (.inr ⟨hw, rfl⟩)

/-- C75.  If user code only calls downwards, there is no deadlock: in every reachable state in which some
call is not over, some call can make a step, whatever user code answers. -/
theorem C75_progress (env : CEnv V) (m0 : Mem V) (hq : m0.Quiet) (rank : Nat → Nat)
    (sch : List (NSched V)) (hr : Ranked env m0 rank sch) (hbusy : ¬ (nafter env m0 sch).Idle) :
    ∃ c, (nafter env m0 sch).mayStep env c :=
  (ninv_ranked hq hr).progress hbusy

/-- Steps of the calls in the list; the `n`-th one comes with the `n`-th answer. -/
def nsteps : (Nat → Answer V) → List Nat → List (NSched V)
  | _, [] => []
  | f, c :: cs => .step c (f 0) :: nsteps (fun n => f (n + 1)) cs

/-- C75.  If user code only calls downwards, then the calls in progress can be brought to an end without
starting any other call, whatever user code answers. -/
theorem C75_completes (env : CEnv V) (m0 : Mem V) (hq : m0.Quiet) (rank : Nat → Nat)
    (sch : List (NSched V)) (hr : Ranked env m0 rank sch) (answers : Nat → Answer V) :
    ∃ more : List Nat, (nafter env m0 (sch ++ nsteps answers more)).Idle ∧
      (nafter env m0 (sch ++ nsteps answers more)).acts.length = (nafter env m0 sch).acts.length := by
  suffices H : ∀ n (s : CState V) (answers : Nat → Answer V), NInv env m0 rank s → s.fuel = n →
      ∃ more : List Nat, (s.nrun env (nsteps answers more)).Idle ∧
        (s.nrun env (nsteps answers more)).acts.length = s.acts.length by
    obtain ⟨more, h1, h2⟩ := H _ _ answers (ninv_ranked hq hr) rfl
    exact ⟨more, by rw [nafter_append]; exact h1, by rw [nafter_append]; exact h2⟩
  intro n
  induction n using Nat.strongRecOn with
  | _ n ih =>
    intro s answers h hn
    by_cases hidle : s.Idle
    · exact ⟨[], hidle, rfl⟩
    · obtain ⟨c, act, hact, hin, hgo⟩ := h.progress hidle
      obtain ⟨r, hr⟩ := hgo (answers 0)
      have hnext : s.nstep env (.step c (answers 0)) = ⟨s.mem.restored r.2, s.acts.set c r.1⟩ := by
        simp only [CState.nstep, hact, hin, hr, if_true]
      have hrel := Act.step_rel (act' := r.1) (m' := r.2) hr
      have hf := sum_set (fun act : Act V => act.pc.fuel) s.acts c act r.1 hact
      have hlt := hrel.fuel
      obtain ⟨more, h1, h2⟩ := ih _ (by
        rw [← hn]
        unfold CState.fuel
        simp only
        omega) ⟨s.mem.restored r.2, s.acts.set c r.1⟩ (fun n => answers (n + 1))
          (h.step hact hin hrel) rfl
      have hrun : s.nrun env (nsteps answers (c :: more)) =
          CState.nrun env (nsteps (fun n => answers (n + 1)) more)
            ⟨s.mem.restored r.2, s.acts.set c r.1⟩ := by
        simp only [CState.nrun, nsteps, List.foldl_cons, hnext]
      refine ⟨c :: more, ?_, ?_⟩
      · rw [hrun]; exact h1
      · rw [hrun, h2]; simp

/-! ## Calling oneself -/

/-- While a call made by user code is not over, the call that runs the user code stays where it is.  So if
`R` is kept by the steps of the inner call as long as the outer one is where it was, then `R` holds. -/
theorem nested_invariant {env : CEnv V} {m0 : Mem V} (hq : m0.Quiet) {R : Act V → Prop}
    {pre post : List (NSched V)} {mt tid : Nat} {args : List V} {i : Nat} {x : Act V}
    (hx : (nafter env m0 pre).acts[i]? = some x) (htid : x.tid = tid)
    (hcall : (nafter env m0 pre).mayCall tid = true)
    (h0 : R (Act.start env mt tid args))
    (hstep : ∀ (s : CState V) (ans : Answer V) (y y' : Act V) (m' : Mem V), CInv m0 s → StaticInv s →
      s.acts[i]? = some x → s.acts[(nafter env m0 pre).acts.length]? = some y → R y →
      Act.Step env (nafter env m0 pre).acts.length y (s.mem.scripted ans) y' m' → R y') :
    ∃ y, (nafter env m0 (pre ++ .start mt tid args :: post)).acts[(nafter env m0 pre).acts.length]? =
      some y ∧ R y := by
  have hrun : nafter env m0 (pre ++ .start mt tid args :: post) =
      CState.nrun env post ⟨(nafter env m0 pre).mem,
        (nafter env m0 pre).acts ++ [Act.start env mt tid args]⟩ := by
    rw [nafter_append]
    have : (nafter env m0 pre).nstep env (.start mt tid args) = ⟨(nafter env m0 pre).mem,
        (nafter env m0 pre).acts ++ [Act.start env mt tid args]⟩ := by
      unfold CState.nstep
      simp only
      rw [if_pos hcall]
    simp only [CState.nrun, List.foldl_cons, this]
  rw [hrun]
  have hci := ninv_run env hq pre
  change CInv m0 (nafter env m0 pre) at hci
  have hsi := static_nrun env m0 pre
  generalize hs0 : nafter env m0 pre = s0 at *
  have hilt : i < s0.acts.length := by
    rcases Nat.lt_or_ge i s0.acts.length with h | h
    · exact h
    · rw [List.getElem?_eq_none h] at hx; cases hx
  let P : CState V → Prop := fun s => CInv m0 s ∧ StaticInv s ∧ ∃ y, s.acts[s0.acts.length]? = some y ∧
    y.tid = tid ∧ R y ∧ (y.finished = false → s.acts[i]? = some x)
  suffices hP : P (CState.nrun env post ⟨s0.mem, s0.acts ++ [Act.start env mt tid args]⟩) by
    obtain ⟨_, _, y, hy, _, hR, _⟩ := hP
    exact ⟨y, hy, hR⟩
  refine CState.nrun_induct (P := P) ?_ ?_ ?_ post
  · refine ⟨hci.start mt tid args, hsi.start mt tid args, _, by simp, rfl, h0, fun _ => ?_⟩
    simp only [acts_push]
    rw [if_neg (by omega), hx]
  · rintro t meth tid' args' ⟨hi, hs, y, hy, ht, hR, hk⟩ _
    have hlt : s0.acts.length < t.acts.length := by
      rcases Nat.lt_or_ge s0.acts.length t.acts.length with h | h
      · exact h
      · rw [List.getElem?_eq_none h] at hy; cases hy
    refine ⟨hi.start meth tid' args', hs.start meth tid' args', y, ?_, ht, hR, fun hf => ?_⟩
    · simp only [acts_push]; rw [if_neg (by omega), hy]
    · simp only [acts_push]; rw [if_neg (by omega), hk hf]
  · rintro t id ans act act' m' ⟨hi, hs, y, hy, ht, hR, hk⟩ hact hin hst
    refine ⟨hi.nested hact hst, hs.nested hact hst, ?_⟩
    by_cases hid : id = s0.acts.length
    · subst hid
      rw [hy] at hact; cases hact
      have hxi := hk hst.unfinished
      refine ⟨act', by simp [acts_set hy], by rw [hst.ident.2.1, ht],
        hstep t ans act act' m' hi hs hxi hy hR hst, fun _ => ?_⟩
      simp only [acts_set hy]
      rw [if_neg (by omega), hxi]
    · refine ⟨y, by simp only [acts_set hact]; rw [if_neg (Ne.symm hid), hy], ht, hR, fun hf => ?_⟩
      have hxi := hk hf
      simp only [acts_set hact]
      by_cases hii : i = id
      · subst hii
        rw [hxi] at hact; cases hact
        rcases CState.innermost_iff.mp hin _ y hy hilt with h | h
        · rw [hf] at h; cases h
        · exact absurd (ht.trans htid.symm) h
      · rw [if_neg hii, hxi]

/-- C75.  A call made by the predicate of an expectation never gets to that expectation: whatever happens
later, it is never dispatched to it. -/
theorem C75_reentry_predicate (env : CEnv V) (m0 : Mem V) (hq : m0.Quiet) (pre post : List (NSched V))
    (mt tid : Nat) (args : List V) (i : Nat) (x : Act V) (a : Nat) (rest : List Nat)
    (hx : (nafter env m0 pre).acts[i]? = some x) (htid : x.tid = tid) (hpc : x.pc = .matching a rest)
    (hcall : (nafter env m0 pre).mayCall tid = true) :
    ∃ y, (nafter env m0 (pre ++ .start mt tid args :: post)).acts[(nafter env m0 pre).acts.length]? =
      some y ∧ y.via ≠ some a := by
  obtain ⟨y, hy, h1, _⟩ := nested_invariant (env := env) (post := post) (mt := mt) (args := args) hq
    (R := fun y => y.via ≠ some a ∧ (∀ r, y.pc ≠ .matching a r) ∧ ∀ r, y.pc ≠ .check a r) hx htid hcall
    (by simp [Act.start]) (by
      intro s ans y y' m' hi _ hxi hy hR hst
      have hheld : ((s.mem.scripted ans).heap a).mheld = some i :=
        (hi.locks.m a i).mpr ⟨x, hxi, by simp [hpc, Pc.holdsM]⟩
      generalize s.mem.scripted ans = m at *
      obtain ⟨r1, r2, r3⟩ := hR
      cases hst <;> simp only [Act.goto] <;> (try simp_all; done)
      case lock b rest' h free hp =>
        refine ⟨r1, ?_, by simp⟩
        intro r hr
        simp only [Pc.matching.injEq] at hr
        obtain ⟨rfl, _⟩ := hr
        rw [hheld] at free; cases free)
  exact ⟨y, hy, h1⟩

/-- C75.  If that expectation is the first one of the method, then the call never ends. -/
theorem C75_reentry_first (env : CEnv V) (m0 : Mem V) (hq : m0.Quiet) (pre post : List (NSched V))
    (mt tid : Nat) (args : List V) (i : Nat) (x : Act V) (a : Nat) (rest others : List Nat)
    (hvec : env.vec mt = a :: others)
    (hx : (nafter env m0 pre).acts[i]? = some x) (htid : x.tid = tid) (hpc : x.pc = .matching a rest)
    (hcall : (nafter env m0 pre).mayCall tid = true) :
    ∃ y, (nafter env m0 (pre ++ .start mt tid args :: post)).acts[(nafter env m0 pre).acts.length]? =
      some y ∧ y.finished = false := by
  obtain ⟨y, hy, h1⟩ := nested_invariant (env := env) (post := post) (mt := mt) (args := args) hq
    (R := fun y => y.pc = .scan (a :: others)) hx htid hcall
    (by simp [Act.start, hvec]) (by
      intro s ans y y' m' hi _ hxi hy hR hst
      have hheld : ((s.mem.scripted ans).heap a).mheld = some i :=
        (hi.locks.m a i).mpr ⟨x, hxi, by simp [hpc, Pc.holdsM]⟩
      generalize s.mem.scripted ans = m at *
      cases hst <;> simp_all)
  exact ⟨y, hy, by simp [Act.finished, h1]⟩

/-- C75.  A call made by the return closure of an expectation never gets an answer from that expectation:
if it is dispatched to it, then it panics or never ends. -/
theorem C75_reentry_closure (env : CEnv V) (m0 : Mem V) (hq : m0.Quiet) (pre post : List (NSched V))
    (mt tid : Nat) (args : List V) (i : Nat) (x : Act V) (a : Nat)
    (hx : (nafter env m0 pre).acts[i]? = some x) (htid : x.tid = tid) (hin : x.inClosure a)
    (hcall : (nafter env m0 pre).mayCall tid = true) :
    ∃ y, (nafter env m0 (pre ++ .start mt tid args :: post)).acts[(nafter env m0 pre).acts.length]? =
      some y ∧ (y.via = some a → ∀ v, y.pc ≠ .done (.ok v)) := by
  obtain ⟨y, hy, _, h1⟩ := nested_invariant (env := env) (post := post) (mt := mt) (args := args) hq
    (R := fun y => (y.pc ≠ .run a) ∧ (y.via = some a → ∀ v, y.pc ≠ .done (.ok v))) hx htid hcall
    (by simp [Act.start]) (by
      intro s ans y y' m' hi hsi hxi hy hR hst
      have hR' : x.pc.holdsR = some a := by
        unfold Act.inClosure at hin
        simp [hin, Pc.holdsR]
      have hheld : ((s.mem.scripted ans).heap a).rheld = some i :=
        (hi.locks.r a i).mpr ⟨x, hxi, hR'⟩
      have hret : ∃ r p, ((s.mem.scripted ans).heap a).exp.ret = .static r p := by
        obtain ⟨r, p, hr⟩ := hsi i x hxi a hR'
        exact ⟨r.scripted ans.value, p, by simp [Mem.scripted, Cell.scripted, hr, Ret.scripted]⟩
      have hcoh := hi.coh _ y hy
      generalize s.mem.scripted ans = m at *
      obtain ⟨rf, rp, hret⟩ := hret
      obtain ⟨r1, r2⟩ := hR
      unfold Act.Coh at hcoh
      cases hst <;> simp only [Act.goto] <;> (try simp_all; done)
      case refOk b r v h hr hv =>
        simp only [h] at hcoh
        refine ⟨by simp, ?_⟩
        intro hv'
        rw [hcoh.1] at hv'
        cases hv'
        rw [hret] at hv; cases hv
      case retLock b r h hr free =>
        refine ⟨?_, by simp⟩
        intro hb
        cases hb
        rw [hheld] at free; cases free
      case refMut b r o h hr ho =>
        simp only [h] at hcoh
        refine ⟨by simp, ?_⟩
        intro hv'
        rw [hcoh.1] at hv'
        cases hv'
        rw [hret] at hr; cases hr)
  exact ⟨y, hy, h1⟩

/-! ## The theorems apply -/

section Examples

/-- `n` steps of call `c`, in which predicates say yes and closures yield `v`. -/
def run (c n v : Nat) : List (NSched Nat) := List.replicate n (.step c ⟨.ok true, .ok v⟩)

/-- The closure of `f0` calls `f1` and adds one to what it gets, in the sequence `f0`, `f1`. -/
def inner : List (NSched Nat) :=
  [.start 0 1 []] ++ run 0 9 0 ++ [.start 1 1 []] ++ run 1 10 20 ++ run 0 1 21

/-- Both calls are answered, and counted. -/
example : let s := nafter (demoEnv single) (demoMem single) inner
    s.outcomes = [some (.ok 21), some (.ok 20)] ∧
    (s.mem.heap 0).count = 1 ∧ (s.mem.heap 1).count = 1 := by exact ⟨by rfl, by rfl, by rfl⟩

/-- C75_accept: `f1` is called while call 0 is in the closure of `f0`, and the thread may call. -/
example : let s := nafter (demoEnv single) (demoMem single) ([.start 0 1 []] ++ run 0 9 0)
    s.mayCall 1 = true ∧ (∃ x, s.acts[0]? = some x ∧ x.via = some 0 ∧ x.inClosure 0) ∧
    ((demoMem single).heap 1).exp.Runs 1 :=
  ⟨by rfl, ⟨_, rfl, by rfl, by rfl⟩, _, rfl, rfl⟩

/-- Before it is in its closure the thread may not call. -/
example : (nafter (demoEnv single) (demoMem single) ([.start 0 1 []] ++ run 0 8 0)).mayCall 1 = false := by
  rfl

/-- C75_progress: this schedule is ranked, `f1` below `f0`. -/
theorem inner_ranked : Ranked (demoEnv single) (demoMem single) (fun a => 1 - a) inner := by
  intro pre post mt tid args hsch c x hx hf ht hin a ha b hb
  -- the two calls
  have key : ∀ (n : Nat), n < inner.length → ∀ mt tid args, inner[n]? = some (.start mt tid args) →
      (n = 0 ∧ mt = 0) ∨ (n = 10 ∧ mt = 1) := by
    intro n hn mt tid args h
    have hn' : n < 22 := hn
    match n, hn' with
    | 0, _ => left; cases h; exact ⟨rfl, rfl⟩
    | 10, _ => right; cases h; exact ⟨rfl, rfl⟩
    | 1, _ | 2, _ | 3, _ | 4, _ | 5, _ | 6, _ | 7, _ | 8, _ | 9, _ | 11, _ | 12, _ | 13, _ | 14, _
    | 15, _ | 16, _ | 17, _ | 18, _ | 19, _ | 20, _ | 21, _ => cases h
  have hpre : inner[pre.length]? = some (.start mt tid args) := by rw [hsch]; simp
  have hlen : pre.length < inner.length := by rw [hsch]; simp
  have htake : pre = inner.take pre.length := by rw [hsch]; simp
  rcases key _ hlen mt tid args hpre with ⟨hn, rfl⟩ | ⟨hn, rfl⟩
  · have : pre = [] := List.length_eq_zero_iff.mp hn
    subst this
    simp [nafter, CState.nrun] at hx
  · rw [hn] at htake
    rw [htake] at hx ha
    have hb' : b ∈ [1] := hb
    have hb1 : b = 1 := by simpa using hb'
    match c with
    | 0 =>
      have e : x.user (nafter (demoEnv single) (demoMem single) (inner.take 10)).mem = some 0 := by
        cases hx; rfl
      rw [ha] at e
      cases e
      subst hb1
      decide
    | c + 1 => cases hx

/-- In the middle of it some call is not over. -/
example : ¬ (nafter (demoEnv single) (demoMem single) (inner.take 15)).Idle := by
  unfold CState.Idle; decide

/-- `f0` has one expectation, whose predicate calls `f0`: that call never ends. -/
def askSelf : List (List (List (Build Nat))) := [[[.withf fun _ => .ok true, .returnConst 1]]]

example : let s := nafter (demoEnv askSelf) (demoMem askSelf) ([.start 0 1 []] ++ run 0 1 0)
    (demoMem askSelf).Quiet ∧ (demoEnv askSelf).vec 0 = [0] ∧ s.mayCall 1 = true ∧
    ∃ x, s.acts[0]? = some x ∧ x.tid = 1 ∧ x.pc = .matching 0 [] :=
  ⟨demoMem_quiet _ (by decide), rfl, by rfl, _, rfl, rfl, rfl⟩

/-- `f0` and `f1` have closures that call each other's method. -/
def cross : List (List (List (Build Nat))) := [[[.returnConst 1]], [[.returnConst 2]]]

/-- Thread 1 is in `f0` and calls `f1`; thread 2 is in `f1` and calls `f0`. -/
def crossed : List (NSched Nat) :=
  [.start 0 1 [], .start 1 2 []] ++ run 0 9 0 ++ run 1 9 0 ++ [.start 1 1 [], .start 0 2 []] ++
    run 2 8 0 ++ run 3 8 0

theorem CState.nstep_waits {env : CEnv V} {s : CState V} {c a d : Nat} {act : Act V} {f : StaticRfunc V}
    {p : Bool} (hact : s.acts[c]? = some act) (hpc : act.pc = .ret a)
    (hh : (s.mem.heap a).rheld = some d) (hr : (s.mem.heap a).exp.ret = .static f p) (ans : Answer V) :
    s.nstep env (.step c ans) = s := by
  have e1 : ((s.mem.scripted ans).heap a).exp.ret = .static (f.scripted ans.value) p := by
    simp [Mem.scripted, Cell.scripted, hr, Ret.scripted]
  have e2 : ((s.mem.scripted ans).heap a).rheld = some d := hh
  have : act.step env c (s.mem.scripted ans) = none := by
    unfold Act.step
    simp only [hpc, e1, e2]
  simp [CState.nstep, hact, this]

theorem CState.nstep_outer {env : CEnv V} {s : CState V} {c : Nat} {act : Act V}
    (hact : s.acts[c]? = some act) (hin : s.innermost c act.tid = false) (ans : Answer V) :
    s.nstep env (.step c ans) = s := by
  simp [CState.nstep, hact, hin]

theorem CState.nstep_absent {env : CEnv V} {s : CState V} {c : Nat} (h : s.acts.length ≤ c)
    (ans : Answer V) : s.nstep env (.step c ans) = s := by
  simp [CState.nstep, List.getElem?_eq_none h]

/-- C75.  Without ranks there are deadlocks: in this state no call is over and none can go on, whatever
user code answers. -/
theorem C75_deadlock : ∃ (env : CEnv Nat) (m0 : Mem Nat) (sch : List (NSched Nat)), m0.Quiet ∧
    (nafter env m0 sch).outcomes = [none, none, none, none] ∧
    ∀ c ans, (nafter env m0 (sch ++ [.step c ans])) = nafter env m0 sch := by
  refine ⟨demoEnv cross, demoMem cross, crossed, demoMem_quiet _ (by decide), by rfl, ?_⟩
  intro c ans
  rw [nafter_append]
  simp only [CState.nrun, List.foldl_cons, List.foldl_nil]
  match c with
  | 0 => exact CState.nstep_outer rfl (by rfl) ans
  | 1 => exact CState.nstep_outer rfl (by rfl) ans
  | 2 => exact CState.nstep_waits (a := 1) (d := 1) rfl (by rfl) (by rfl) (by rfl) ans
  | 3 => exact CState.nstep_waits (a := 0) (d := 0) rfl (by rfl) (by rfl) (by rfl) ans
  | c + 4 => exact CState.nstep_absent (by change 4 ≤ c + 4; omega) ans

/-- The closure of `f0` calls `f0`: it waits for itself. -/
theorem C75_self : ∃ (env : CEnv Nat) (m0 : Mem Nat) (sch : List (NSched Nat)), m0.Quiet ∧
    (∀ act ∈ (nafter env m0 sch).acts, act.tid = 1) ∧
    (nafter env m0 sch).outcomes = [none, none] ∧
    ∀ c ans, (nafter env m0 (sch ++ [.step c ans])) = nafter env m0 sch := by
  refine ⟨demoEnv cross, demoMem cross, [.start 0 1 []] ++ run 0 9 0 ++ [.start 0 1 []] ++ run 1 8 0,
    demoMem_quiet _ (by decide), by decide, by rfl, ?_⟩
  intro c ans
  rw [nafter_append]
  simp only [CState.nrun, List.foldl_cons, List.foldl_nil]
  match c with
  | 0 => exact CState.nstep_outer rfl (by rfl) ans
  | 1 => exact CState.nstep_waits (a := 0) (d := 0) rfl (by rfl) (by rfl) (by rfl) ans
  | c + 2 => exact CState.nstep_absent (by change 2 ≤ c + 2; omega) ans

end Examples

end Mockall
