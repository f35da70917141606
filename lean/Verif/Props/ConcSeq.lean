import Verif.Props.ConcOrder

/-! # Sequences under concurrency (C39) -/

set_option linter.unusedSimpArgs false

namespace Mockall

variable {V : Type}

/-- Expectation `a` is member number `k` of sequence `sid`. -/
def Mem.member (m : Mem V) (sid a k : Nat) : Prop :=
  (m.heap a).exp.common.seqHandle = some ⟨sid, k⟩

/-- A sequence all of whose members are `times(1)`, none of which has been called yet.  No two
expectations have the same place. -/
structure Mem.Fresh1 (m : Mem V) (sid : Nat) : Prop where
  one : ∀ a k, m.member sid a k → (m.heap a).exp.common.times.range = ⟨1, 2⟩
  uniq : ∀ a b k, m.member sid a k → m.member sid b k → a = b
  zero : ∀ a k, m.member sid a k → (m.heap a).count = 0
  level : (m.seqs sid).level = 0

/-- The call has been counted but has not yet told the sequence. -/
def Pc.early : Pc V → Bool
  | .verify _ | .loadLow _ | .loadHigh _ _ | .satisfy _ => true
  | _ => false

/-- The call has passed the sequence check and is about to tell the sequence. -/
def Pc.verified : Pc V → Option Nat
  | .loadLow a | .loadHigh a _ | .satisfy a => some a
  | _ => none

/-- The call has told the sequence. -/
def Pc.late : Pc V → Bool
  | .ret _ | .run _ | .runFail _ _ | .refFail _ _ | .done (.ok _) => true
  | _ => false

/-- The invariant behind C39. -/
structure CSeqInv (m0 : Mem V) (sid : Nat) (s : CState V) : Prop where
  verified : ∀ (c : Nat) (act : Act V) (a k : Nat), s.acts[c]? = some act → m0.member sid a k →
    act.pc.verified = some a → (s.mem.seqs sid).level = k
  low : ∀ (c : Nat) (act : Act V) (a k : Nat) (low : Bool), s.acts[c]? = some act →
    m0.member sid a k → act.pc = .loadHigh a low → low = true
  late : ∀ (c : Nat) (act : Act V) (a k : Nat), s.acts[c]? = some act → m0.member sid a k →
    act.via = some a → act.pc.late = true → k < (s.mem.seqs sid).level
  passed : ∀ a k, m0.member sid a k → k < (s.mem.seqs sid).level →
    ∃ (c : Nat) (act : Act V), s.acts[c]? = some act ∧ act.via = some a ∧ act.passed = true ∧
      act.pc.early = false

theorem countP_two {α : Type} {p : α → Bool} {l : List α} {i j : Nat} {x y : α} (hij : i ≠ j)
    (hi : l[i]? = some x) (hj : l[j]? = some y) (hx : p x = true) (hy : p y = true) :
    2 ≤ l.countP p := by
  induction l generalizing i j with
  | nil => simp at hi
  | cons z l ih =>
    simp only [List.countP_cons]
    have pos : ∀ (n : Nat) (w : α), l[n]? = some w → p w = true → 1 ≤ l.countP p := by
      intro n w hn hw
      exact List.countP_pos_iff.mpr ⟨w, List.mem_of_getElem? hn, hw⟩
    cases i with
    | zero =>
      cases j with
      | zero => exact absurd rfl hij
      | succ j =>
        simp at hi hj
        subst hi
        have := pos j y hj hy
        rw [if_pos hx]; omega
    | succ i =>
      cases j with
      | zero =>
        simp at hi hj
        subst hj
        have := pos i x hi hx
        rw [if_pos hy]; omega
      | succ j =>
        simp at hi hj
        have := ih (by omega) hi hj
        omega

/-- At most one call gets past the count check of a `times(1)` expectation. -/
theorem one_passes {m0 : Mem V} {s : CState V} (hi : CInv m0 s) {a : Nat}
    (hone : (m0.heap a).exp.common.times.range = ⟨1, 2⟩) (hzero : (m0.heap a).count = 0)
    (hfit : s.acts.length ≤ usizeMax) {c d : Nat} {x y : Act V} (hc : s.acts[c]? = some x)
    (hd : s.acts[d]? = some y) (hxv : x.via = some a) (hxp : x.passed = true)
    (hyv : y.via = some a) (hyp : y.passed = true) : c = d := by
  have hp := hi.passed a
  have hle := List.countP_le_length (p := Act.counted a) (l := s.acts)
  rw [hzero, hone] at hp
  have hp := hp (by omega)
  simp only at hp
  by_cases hcd : c = d
  · exact hcd
  · have := countP_two (p := Act.passedAt a) hcd hc hd (by simp [Act.passedAt, hxv, hxp])
      (by simp [Act.passedAt, hyv, hyp])
    omega

theorem Pc.verified_coh {act : Act V} (hc : act.Coh) {a : Nat} (h : act.pc.verified = some a) :
    act.via = some a ∧ act.passed = true ∧ act.pc.early = true ∧ act.pc.late = false := by
  unfold Act.Coh at hc
  cases hpc : act.pc <;> simp [hpc, Pc.verified] at h hc
  all_goals
    subst h
    exact ⟨hc.1, hc.2, rfl, rfl⟩

theorem CSeqInv.init {m0 : Mem V} {sid : Nat} (hf : m0.Fresh1 sid) : CSeqInv m0 sid ⟨m0, []⟩ := by
  refine ⟨by simp, by simp, by simp, ?_⟩
  intro a k _ hlt
  simp only [hf.level] at hlt
  omega

theorem CSeqInv.start {env : CEnv V} {m0 : Mem V} {sid : Nat} {s : CState V} (h : CSeqInv m0 sid s)
    (meth tid : Nat) (args : List V) :
    CSeqInv m0 sid { s with acts := s.acts ++ [Act.start env meth tid args] } := by
  obtain ⟨h1, h2, h3, h4⟩ := h
  refine ⟨?_, ?_, ?_, ?_⟩
  · intro c act a k hact hm hv
    simp only [acts_push] at hact
    split at hact
    · cases hact; simp [Act.start, Pc.verified] at hv
    · exact h1 c act a k hact hm hv
  · intro c act a k low hact hm hv
    simp only [acts_push] at hact
    split at hact
    · cases hact; simp [Act.start] at hv
    · exact h2 c act a k low hact hm hv
  · intro c act a k hact hm hv
    simp only [acts_push] at hact
    split at hact
    · cases hact; simp [Act.start] at hv
    · exact h3 c act a k hact hm hv
  · intro a k hm hlt
    obtain ⟨c, act, hact, h⟩ := h4 a k hm hlt
    refine ⟨c, act, ?_, h⟩
    simp only [acts_push]
    rw [if_neg, hact]
    intro hc
    rw [hc, List.getElem?_eq_none (Nat.le_refl _)] at hact
    cases hact

/-- What a step does to the level of the sequence. -/
theorem CSeqInv.level_step {env : CEnv V} {m0 : Mem V} {sid : Nat} {s : CState V}
    (h : CSeqInv m0 sid s) (hi : CInv m0 s) {id : Nat}
    {act act' : Act V} {m' : Mem V} (hact : s.acts[id]? = some act)
    (hs : Act.Step env id act s.mem act' m') :
    (m'.seqs sid).level = (s.mem.seqs sid).level ∨
      ∃ a k, act.pc = .satisfy a ∧ m0.member sid a k ∧ (s.mem.seqs sid).level = k ∧
        (m'.seqs sid).level = k + 1 ∧ act'.pc = .ret a ∧ act'.via = some a ∧
        act'.passed = true := by
  obtain ⟨h1, h2, h3, h4⟩ := h
  have hcoh := hi.coh id act hact
  rcases hs.seqs with h | ⟨a, hpc, h⟩
  · left; rw [h]
  · cases hh : (s.mem.heap a).exp.common.seqHandle with
    | none =>
      left
      rw [h]
      simp [Common.satisfySequence, hh]
    | some hd =>
      by_cases hsid : hd.sid = sid
      · right
        have hm : m0.member sid a hd.seq := by
          unfold Mem.member
          rw [← (hi.same a).handle, hh, ← hsid]
        have hlv := h1 id act a hd.seq hact hm (by rw [hpc]; rfl)
        simp only [Act.Coh, hpc] at hcoh
        have hsat : (s.mem.heap a).exp.common.satisfySequence s.mem.seqs =
            (.ok (), s.mem.seqs.set hd.sid { s.mem.seqs hd.sid with
              level := (s.mem.seqs hd.sid).level + 1 }) := by
          simp only [Common.satisfySequence, hh, Seqs.satisfy]
          rw [if_pos (by rw [hsid]; exact hlv)]
        refine ⟨a, hd.seq, hpc, hm, hlv, ?_, ?_⟩
        · rw [h, hsat]
          simp [Seqs.set, hsid, hlv]
        · rcases (hs.of_satisfy hpc).2 with ⟨p, hp, _⟩ | ⟨_, ha⟩
          · rw [hsat] at hp; cases hp
          · rw [ha]; exact ⟨rfl, hcoh.1, hcoh.2⟩
      · left
        rw [h]
        have hsid' : ¬ sid = hd.sid := fun he => hsid he.symm
        simp only [Common.satisfySequence, hh, Seqs.satisfy]
        split <;> simp [Seqs.set, hsid']

theorem CSeqInv.step {env : CEnv V} {m0 : Mem V} {sid : Nat} (hf : m0.Fresh1 sid) {s : CState V}
    (hi : CInv m0 s) (hl : s.acts.length ≤ usizeMax) (h0 : CSeqInv m0 sid s) {id : Nat}
    {act act' : Act V} {m' : Mem V} (hact : s.acts[id]? = some act)
    (hs : Act.Step env id act s.mem act' m') :
    CSeqInv m0 sid { mem := m', acts := s.acts.set id act' } := by
  have ⟨h1, h2, h3, h4⟩ := h0
  have hcoh := hi.coh id act hact
  have hhandle : ∀ a k, m0.member sid a k → (s.mem.heap a).exp.common.seqHandle = some ⟨sid, k⟩ :=
    fun a k hm => by rw [(hi.same a).handle]; exact hm
  have hlevel := h0.level_step hi hact hs
  refine ⟨?_, ?_, ?_, ?_⟩
  · intro c x a k hx hm hv
    simp only [acts_set hact] at hx
    split at hx
    next hc =>
      cases hx
      -- the stepping call itself
      cases hs
      case verifyOk b hpc hver =>
        simp only [Act.goto, Pc.verified] at hv
        cases hv
        simp only [Common.verifySequence, hhandle a k hm, Seqs.verify] at hver
        split at hver
        next he => exact he.symm
        next => cases hver
      case loadLow b hpc =>
        simp only [Act.goto, Pc.verified] at hv
        cases hv
        exact h1 id act a k hact hm (by rw [hpc]; rfl)
      case highEnough b hpc =>
        simp only [Act.goto, Pc.verified] at hv
        cases hv
        exact h1 id act a k hact hm (by rw [hpc]; rfl)
      all_goals simp [Act.goto, Pc.verified] at hv
    next hc =>
      have hk := h1 c x a k hx hm hv
      rcases hlevel with h | ⟨b, k', hpc, hm', hk', h, hpc', _⟩
      · simp only; rw [h]; exact hk
      · exfalso
        have : k' = k := by omega
        subst this
        have hab := hf.uniq a b k' hm hm'
        subst hab
        obtain ⟨v1, v2, _⟩ := Pc.verified_coh (hi.coh c x hx) hv
        simp only [Act.Coh, hpc] at hcoh
        exact hc (one_passes hi (hf.one a k' hm) (hf.zero a k' hm) hl hx hact v1 v2 hcoh.1 hcoh.2)
  · intro c x a k low hx hm hv
    simp only [acts_set hact] at hx
    split at hx
    next hc =>
      cases hx
      cases hs
      case loadLow b hpc =>
        simp only [Act.goto, Pc.loadHigh.injEq] at hv
        obtain ⟨rfl, hv⟩ := hv
        simp only [Act.Coh, hpc] at hcoh
        rw [← hv]
        simp only [decide_eq_true_eq]
        rw [(hi.same b).range, hf.one b k hm, hi.count b, hf.zero b k hm]
        have hpos : 1 ≤ s.acts.countP (Act.counted b) :=
          List.countP_pos_iff.mpr ⟨act, List.mem_of_getElem? hact, by
            simp [Act.counted, hpc, hcoh.1]⟩
        have hle := List.countP_le_length (p := Act.counted b) (l := s.acts)
        rw [Nat.mod_eq_of_lt (by omega)]
        simp only
        omega
      all_goals simp [Act.goto] at hv
    next hc => exact h2 c x a k low hx hm hv
  · intro c x a k hx hm hvia hlate
    simp only [acts_set hact] at hx
    have hmono : (s.mem.seqs sid).level ≤ (m'.seqs sid).level := by
      rcases hlevel with h | ⟨_, _, _, _, h1', h, _⟩ <;> omega
    split at hx
    next hc =>
      cases hx
      rcases hlevel with h | ⟨b, k', hpc, hm', hk', h, hpc', hv', _⟩
      · -- the call was late before, or has just become so without a sequence
        simp only; rw [h]
        have hwas : act.pc.late = true ∧ act.via = some a ∨ act.pc = .loadHigh a false ∨
            act.pc = .satisfy a := by
          cases hs <;> simp_all [Act.goto, Pc.late, Act.Coh]
        rcases hwas with ⟨w1, w2⟩ | w | w
        · exact h3 id act a k hact hm w2 w1
        · exact absurd (h2 id act a k false hact hm w) (by simp)
        · exfalso
          have hlv := h1 id act a k hact hm (by rw [w]; rfl)
          have hsat : (s.mem.heap a).exp.common.satisfySequence s.mem.seqs =
              (.ok (), s.mem.seqs.set sid { s.mem.seqs sid with
                level := (s.mem.seqs sid).level + 1 }) := by
            simp only [Common.satisfySequence, hhandle a k hm, Seqs.satisfy]
            rw [if_pos hlv]
          have hm'' := (hs.of_satisfy w).1
          rw [hm'', hsat] at h
          simp [Seqs.set] at h
      · simp only
        have : k = k' := by
          rw [hv'] at hvia
          cases hvia
          unfold Mem.member at hm hm'
          rw [hm] at hm'
          simpa using hm'
        omega
    next hc =>
      have := h3 c x a k hx hm hvia hlate
      simp only
      omega
  · intro a k hm hlt
    simp only at hlt
    -- an old witness is still one
    have hold : k < (s.mem.seqs sid).level → ∃ (c : Nat) (x : Act V),
        (s.acts.set id act')[c]? = some x ∧ x.via = some a ∧ x.passed = true ∧
        x.pc.early = false := by
      intro hlt'
      obtain ⟨c, x, hx, hxv, hxp, hxe⟩ := h4 a k hm hlt'
      by_cases hc : c = id
      · subst hc
        rw [hact] at hx; cases hx
        have hk := hs.keep hcoh hxp
        refine ⟨c, act', by simp [acts_set hact], by rw [hk.2]; exact hxv, hk.1, ?_⟩
        cases hs <;> simp_all [Act.goto, Pc.early, Act.Coh]
        all_goals (cases ‹RfuncOut V _› <;> simp_all)
      · exact ⟨c, x, by simp [acts_set hact, hc, hx], hxv, hxp, hxe⟩
    rcases hlevel with h | ⟨b, k', hpc, hm', hk', h, hpc', hv', hp'⟩
    · exact hold (by omega)
    · by_cases hkk : k = k'
      · subst hkk
        have := hf.uniq a b k hm hm'
        subst this
        exact ⟨id, act', by simp [acts_set hact], hv', hp', by rw [hpc']; rfl⟩
      · exact hold (by omega)

theorem cseqInv_run {env : CEnv V} {m0 : Mem V} (hq : m0.Quiet) {sid : Nat} (hf : m0.Fresh1 sid)
    (sch : List (Sched V)) (hfit : (after env m0 sch).acts.length ≤ usizeMax) :
    CSeqInv m0 sid (after env m0 sch) := by
  let P : CState V → Prop := fun s => CInv m0 s ∧ (s.acts.length ≤ usizeMax → CSeqInv m0 sid s)
  suffices hh : P (after env m0 sch) from hh.2 hfit
  refine CState.run_induct (P := P) ?_ ?_ ?_ sch
  · exact ⟨CInv.init hq, fun _ => CSeqInv.init hf⟩
  · rintro s meth tid args ⟨hi, ih⟩ _
    refine ⟨hi.start meth tid args, fun hl => ?_⟩
    simp only [List.length_append, List.length_cons, List.length_nil] at hl
    exact (ih (by omega)).start meth tid args
  · rintro s id act act' m' ⟨hi, ih⟩ hact hs
    refine ⟨hi.step hact hs, fun hl => ?_⟩
    simp only [List.length_set] at hl
    exact (ih hl).step hf hi hl hact hs

/-- C39, first half, provable part: sequences of `times(1)` expectations (for larger counts see
`C39_refuted`).  In a sequence of `times(1)` expectations, in every interleaving: when a call to
member number `k` has returned, every earlier member has had its call. -/
theorem C39_order_partial (env : CEnv V) (m0 : Mem V) (hq : m0.Quiet) (sid : Nat) (hf : m0.Fresh1 sid)
    (sch : List (Sched V)) (hfit : (after env m0 sch).acts.length ≤ usizeMax)
    (act : Act V) (hact : act ∈ (after env m0 sch).acts) (a k : Nat) (hm : m0.member sid a k)
    (hvia : act.via = some a) (v : V) (hv : act.pc = .done (.ok v))
    (b j : Nat) (hj : m0.member sid b j) (hjk : j < k) :
    ∃ x ∈ (after env m0 sch).acts, x.via = some b ∧ x.passed = true := by
  have h := cseqInv_run hq hf sch hfit
  obtain ⟨c, hc⟩ := List.getElem?_of_mem hact
  have hlt := h.late c act a k hc hm hvia (by rw [hv]; rfl)
  obtain ⟨d, x, hx, h1, h2, _⟩ := h.passed b j hj (by omega)
  exact ⟨x, List.mem_of_getElem? hx, h1, h2⟩

/-- The return function of this expectation gives a value when called by thread `tid` with `args`. -/
def Expectation.Answers (nightly : Bool) (default : Option V) (tid : Nat) (args : List V)
    (e : Expectation V) : Prop :=
  match e.ret with
  | .ref r => ∃ v, r.call nightly = .ok v
  | .static r poison => poison = false ∧ ∃ v, (r.callMut nightly default tid args).out = .ok (.ok v)
  -- a `&mut self` method cannot be called concurrently
  | .refMut _ => False

/-- The call has run the return function. -/
def Pc.ran : Pc V → Bool
  | .runFail _ _ | .refFail _ _ | .done _ => true
  | _ => false

theorem Act.Step.ran {env : CEnv V} {id : Nat} {act act' : Act V} {m m' : Mem V}
    (h : Act.Step env id act m act' m') (hr : act.pc.ran = true) : act'.pc.ran = true := by
  cases h <;> simp_all [Act.goto, Pc.ran]

theorem Act.Step.retKept {env : CEnv V} {id : Nat} {act act' : Act V} {m m' : Mem V}
    (h : Act.Step env id act m act' m') (hc : act.Coh) (a : Nat) :
    (m'.heap a).exp.ret = (m.heap a).exp.ret ∨
      (act'.pc.ran = true ∧ act.via = some a ∧ act.passed = true) := by
  have aux : ∀ (b : Nat) (c : Cell V), (m.put b c).heap a = if a = b then c else m.heap a :=
    fun _ _ => rfl
  unfold Act.Coh at hc
  cases h
  case runOk b r poison o v hpc hr ho hv =>
    by_cases hab : a = b
    · subst hab; right; simp only [hpc] at hc; exact ⟨rfl, hc⟩
    · left; simp [hab]
  case runErr b r poison o v hpc hr ho hv =>
    by_cases hab : a = b
    · subst hab; right; simp only [hpc] at hc; exact ⟨rfl, hc⟩
    · left; simp [hab]
  case runPanic b r poison o v hpc hr ho hv =>
    by_cases hab : a = b
    · subst hab; right; simp only [hpc] at hc; exact ⟨rfl, hc⟩
    · left; simp [hab]
  case refMut b r o hpc hr ho =>
    by_cases hab : a = b
    · subst hab; right; simp only [hpc] at hc; exact ⟨rfl, hc⟩
    · left; simp [hab]
  case runFail b e r poison hpc hr free =>
    by_cases hab : a = b
    · subst hab; right; simp only [hpc] at hc; exact ⟨rfl, hc⟩
    · left; simp [hab]
  all_goals
    left
    simp only [Mem.put_heap]
    try split
    all_goals first
      | rfl
      | (subst_vars; rfl)

/-- A return function is as configured until the first call has run it. -/
theorem ret_run {env : CEnv V} {m0 : Mem V} (hq : m0.Quiet) (sch : List (Sched V)) (a : Nat) :
    ((after env m0 sch).mem.heap a).exp.ret = (m0.heap a).exp.ret ∨ ∃ (c : Nat) (x : Act V),
      (after env m0 sch).acts[c]? = some x ∧ x.via = some a ∧ x.passed = true ∧
      x.pc.ran = true := by
  let P : CState V → Prop := fun s => CInv m0 s ∧
    ((s.mem.heap a).exp.ret = (m0.heap a).exp.ret ∨ ∃ (c : Nat) (x : Act V),
      s.acts[c]? = some x ∧ x.via = some a ∧ x.passed = true ∧ x.pc.ran = true)
  suffices hh : P (after env m0 sch) from hh.2
  refine CState.run_induct (P := P) ⟨CInv.init hq, .inl rfl⟩ ?_ ?_ sch
  · rintro s meth tid args ⟨hi, ih⟩ _
    refine ⟨hi.start meth tid args, ih.imp id ?_⟩
    rintro ⟨c, x, hx, h⟩
    refine ⟨c, x, ?_, h⟩
    simp only [acts_push]
    rw [if_neg, hx]
    intro hc
    rw [hc, List.getElem?_eq_none (Nat.le_refl _)] at hx
    cases hx
  · rintro s id act act' m' ⟨hi, ih⟩ hact hs
    have hcoh := hi.coh id act hact
    refine ⟨hi.step hact hs, ?_⟩
    rcases hs.retKept hcoh a with h | ⟨h1, h2, h3⟩
    · rcases ih with ih | ⟨c, x, hx, hv, hp, hr⟩
      · left; simp only; rw [h, ih]
      · right
        by_cases hc : c = id
        · subst hc
          rw [hact] at hx; cases hx
          have hk := hs.keep hcoh hp
          exact ⟨c, act', by simp [acts_set hact], by rw [hk.2]; exact hv, hk.1, hs.ran hr⟩
        · exact ⟨c, x, by simp [acts_set hact, hc, hx], hv, hp, hr⟩
    · right
      have hk := hs.keep hcoh h3
      exact ⟨id, act', by simp [acts_set hact], by rw [hk.2]; exact h2, hk.1, h1⟩

/-- The return function of `a` is as configured until a call has run it, and call number `id`, if it is
the one that `a` accepts, has not been rejected. -/
def AcceptInv (m0 : Mem V) (a id mt tid : Nat) (args : List V) (s : CState V) : Prop :=
  ((s.mem.heap a).exp.ret = (m0.heap a).exp.ret ∨ ∃ (c : Nat) (x : Act V),
    s.acts[c]? = some x ∧ x.via = some a ∧ x.passed = true ∧ x.pc.ran = true) ∧
  ∀ y, s.acts[id]? = some y → y.meth = mt ∧ y.tid = tid ∧ y.args = args ∧
    (y.via = some a → y.passed = true →
      y.pc.early = true ∨ y.pc = .ret a ∨ y.pc = .run a ∨ ∃ v, y.pc = .done (.ok v))

theorem AcceptInv.start {env : CEnv V} {m0 : Mem V} {a id mt tid : Nat} {args : List V} {s : CState V}
    (h : AcceptInv m0 a id mt tid args s) (hid : id < s.acts.length) (meth' tid' : Nat)
    (args' : List V) :
    AcceptInv m0 a id mt tid args { s with acts := s.acts ++ [Act.start env meth' tid' args'] } := by
  obtain ⟨q3, q4⟩ := h
  refine ⟨q3.imp (fun h => h) ?_, ?_⟩
  · rintro ⟨c, x, hx, h⟩
    refine ⟨c, x, ?_, h⟩
    simp only [acts_push]
    rw [if_neg, hx]
    intro hc
    rw [hc, List.getElem?_eq_none (Nat.le_refl _)] at hx
    cases hx
  · intro y hy
    simp only [acts_push] at hy
    rw [if_neg (by omega)] at hy
    exact q4 y hy

/-- A member has its turn until its call has told the sequence. -/
theorem CSeqInv.turn {m0 : Mem V} {sid : Nat} (hf : m0.Fresh1 sid) {s : CState V} (hi : CInv m0 s)
    (q1 : CSeqInv m0 sid s) (hl : s.acts.length ≤ usizeMax) {a k : Nat} (hm : m0.member sid a k)
    (q2 : k ≤ (s.mem.seqs sid).level) {i : Nat} {x : Act V} (hx : s.acts[i]? = some x)
    (h1 : x.via = some a) (h2 : x.passed = true) (h3 : x.pc.early = true) :
    (s.mem.seqs sid).level = k := by
  rcases Nat.lt_or_ge k (s.mem.seqs sid).level with hlt | hge
  · obtain ⟨c, z, hz, hzv, hzp, hze⟩ := q1.passed a k hm hlt
    have := one_passes hi (hf.one a k hm) (hf.zero a k hm) hl hz hx hzv hzp h1 h2
    subst this
    rw [hx] at hz; cases hz
    rw [h3] at hze; cases hze
  · omega

theorem AcceptInv.step {env : CEnv V} {m0 : Mem V} {sid : Nat} (hf : m0.Fresh1 sid) {a k id mt tid : Nat}
    {args : List V} (hm : m0.member sid a k)
    {i : Nat}
    (hans : id = i → (m0.heap a).exp.Answers env.nightly (env.info mt).default tid args) {s : CState V}
    (hi : CInv m0 s) (q1 : CSeqInv m0 sid s) (hl : s.acts.length ≤ usizeMax)
    (q2 : k ≤ (s.mem.seqs sid).level) (h : AcceptInv m0 a id mt tid args s) {x x' : Act V}
    {m' : Mem V} (hx : s.acts[i]? = some x) (hs : Act.Step env i x s.mem x' m') :
    AcceptInv m0 a id mt tid args { mem := m', acts := s.acts.set i x' } := by
  obtain ⟨q3, q4⟩ := h
  have hcoh := hi.coh i x hx
  refine ⟨?_, ?_⟩
  · rcases hs.retKept hcoh a with h | ⟨h1, h2, h3⟩
    · rcases q3 with q3 | ⟨c, z, hz, hv, hp, hr⟩
      · left; simp only; rw [h, q3]
      · right
        by_cases hc : c = i
        · subst hc
          rw [hx] at hz; cases hz
          have hk := hs.keep hcoh hp
          exact ⟨c, x', by simp [acts_set hx], by rw [hk.2]; exact hv, hk.1, hs.ran hr⟩
        · exact ⟨c, z, by simp [acts_set hx, hc, hz], hv, hp, hr⟩
    · right
      have hk := hs.keep hcoh h3
      exact ⟨i, x', by simp [acts_set hx], by rw [hk.2]; exact h2, hk.1, h1⟩
  · intro y hy
    simp only [acts_set hx] at hy
    split at hy
    next hc =>
      replace hans := hans hc
      subst hc
      cases hy
      obtain ⟨e1, e2, e3, e4⟩ := q4 x hx
      obtain ⟨i1, i2, i3⟩ := hs.ident
      refine ⟨by rw [i1, e1], by rw [i2, e2], by rw [i3, e3], ?_⟩
      intro hv hp
      -- before the return function has run it is as configured
      have hret : x.via = some a → x.passed = true → x.pc.ran = false →
          (s.mem.heap a).exp.ret = (m0.heap a).exp.ret := by
        intro h1 h2 h3
        rcases q3 with q3 | ⟨c, z, hz, hzv, hzp, hzr⟩
        · exact q3
        · have := one_passes hi (hf.one a k hm) (hf.zero a k hm) hl hz hx hzv hzp h1 h2
          subst this
          rw [hx] at hz; cases hz
          rw [h3] at hzr; cases hzr
      -- the sequence is at this member until the call has told it
      have hlev : x.via = some a → x.passed = true → x.pc.early = true →
          (s.mem.seqs sid).level = k := q1.turn hf hi hl hm q2 hx
      have hhandle : (s.mem.heap a).exp.common.seqHandle = some ⟨sid, k⟩ := by
        rw [(hi.same a).handle]; exact hm
      unfold Act.Coh at hcoh
      cases hs
      case incOk b hpc hc => left; rfl
      case verifyOk b hpc hver => left; rfl
      case loadLow b hpc => left; rfl
      case highEnough b hpc => left; rfl
      case highFew b hpc =>
        simp only [hpc] at hcoh
        simp only [Act.goto] at hv hp
        rw [hv] at hcoh
        cases hcoh.1
        exact absurd (q1.low _ x a k false hx hm hpc) (by simp)
      case verifyFail b p hpc hver =>
        simp only [hpc] at hcoh
        simp only [Act.goto] at hv hp
        rw [hv] at hcoh
        cases hcoh.1
        have hl' := hlev hv hp (by rw [hpc]; rfl)
        simp [Common.verifySequence, hhandle, Seqs.verify, hl'] at hver
      case satFail b p hpc hsat =>
        simp only [hpc] at hcoh
        simp only [Act.goto] at hv hp
        rw [hv] at hcoh
        cases hcoh.1
        have hl' := hlev hv hp (by rw [hpc]; rfl)
        simp [Common.satisfySequence, hhandle, Seqs.satisfy, hl'] at hsat
      case satOk b hpc hsat =>
        simp only [hpc] at hcoh
        simp only [Act.goto] at hv hp
        rw [hv] at hcoh
        cases hcoh.1
        right; left; rfl
      case refOk b r v hpc hr hv' => right; right; right; exact ⟨v, rfl⟩
      case runOk b r poison o v hpc hr ho hv' => right; right; right; exact ⟨v, rfl⟩
      case retLock b r hpc hr free =>
        simp only [hpc] at hcoh
        simp only [Act.goto] at hv hp
        rw [hv] at hcoh
        cases hcoh.1
        right; right; left; rfl
      case refErr b r e hpc hr hv' =>
        simp only [hpc] at hcoh
        simp only [Act.goto] at hv hp
        rw [hv] at hcoh
        cases hcoh.1
        have hh := hret hv hp (by rw [hpc]; rfl)
        unfold Expectation.Answers at hans
        rw [← hh, hr] at hans
        obtain ⟨v, hans⟩ := hans
        rw [hv'] at hans; cases hans
      case retPoisoned b r hpc hr free =>
        simp only [hpc] at hcoh
        simp only [Act.goto] at hv hp
        rw [hv] at hcoh
        cases hcoh.1
        have hh := hret hv hp (by rw [hpc]; rfl)
        unfold Expectation.Answers at hans
        rw [← hh, hr] at hans
        exact absurd hans.1 (by simp)
      case refMut b r o hpc hr ho =>
        simp only [hpc] at hcoh
        simp only [Act.goto] at hv hp
        rw [hv] at hcoh
        cases hcoh.1
        have hh := hret hv hp (by rw [hpc]; rfl)
        unfold Expectation.Answers at hans
        rw [← hh, hr] at hans
        exact hans.elim
      case runErr b r poison o e hpc hr ho hv' =>
        simp only [hpc] at hcoh
        simp only [Act.goto] at hv hp
        rw [hv] at hcoh
        cases hcoh.1
        have hh := hret hv hp (by rw [hpc]; rfl)
        unfold Expectation.Answers at hans
        rw [← hh, hr] at hans
        obtain ⟨_, v, hans⟩ := hans
        rw [ho, e1, e2, e3] at hv'
        rw [hans] at hv'; cases hv'
      case runPanic b r poison o p hpc hr ho hv' =>
        simp only [hpc] at hcoh
        simp only [Act.goto] at hv hp
        rw [hv] at hcoh
        cases hcoh.1
        have hh := hret hv hp (by rw [hpc]; rfl)
        unfold Expectation.Answers at hans
        rw [← hh, hr] at hans
        obtain ⟨_, v, hans⟩ := hans
        rw [ho, e1, e2, e3] at hv'
        rw [hans] at hv'; cases hv'
      case runFail b e r poison hpc hr free =>
        simp only [hpc] at hcoh
        simp only [Act.goto] at hv hp
        rcases e4 hv hp with h | h | h | ⟨v, h⟩ <;> rw [hpc] at h <;> simp [Pc.early] at h
      case refFail b e hpc free =>
        simp only [hpc] at hcoh
        simp only [Act.goto] at hv hp
        rcases e4 hv hp with h | h | h | ⟨v, h⟩ <;> rw [hpc] at h <;> simp [Pc.early] at h
      all_goals
        exfalso
        simp_all [Act.goto]
    next hc => exact q4 y hy

/-- C39, second half, provable part: sequences of `times(1)` expectations (for larger counts see
`C39_refuted`).  In a sequence of `times(1)` expectations, let a call start after the calls to
all members before number `k` have returned.  If it is the call that member `k` accepts (matched and
within its count), then it is never rejected: in every interleaving, when it is over it has returned a
value (supposing the closure given to member `k` returns one). -/
theorem C39_accept_partial (env : CEnv V) (m0 : Mem V) (hq : m0.Quiet) (sid : Nat) (hf : m0.Fresh1 sid)
    (pre post : List (Sched V)) (mt tid : Nat) (args : List V) (a k : Nat) (hm : m0.member sid a k)
    (hfree : (after env m0 pre).threadFree tid)
    (hbefore : ∀ j, j < k → ∃ b, m0.member sid b j ∧
      ∃ x ∈ (after env m0 pre).acts, x.via = some b ∧ ∃ v, x.pc = .done (.ok v))
    (hans : (m0.heap a).exp.Answers env.nightly (env.info mt).default tid args)
    (hfit : (after env m0 (pre ++ .start mt tid args :: post)).acts.length ≤ usizeMax)
    (act : Act V)
    (hact : (after env m0 (pre ++ .start mt tid args :: post)).acts[(after env m0 pre).acts.length]?
      = some act) (hvia : act.via = some a) (hpass : act.passed = true)
    (hfin : act.finished = true) :
    ∃ v, act.pc = .done (.ok v) := by
  let id := (after env m0 pre).acts.length
  let Q : CState V → Prop := fun s =>
    CSeqInv m0 sid s ∧ k ≤ (s.mem.seqs sid).level ∧ AcceptInv m0 a id mt tid args s
  let P : CState V → Prop := fun s => id < s.acts.length ∧ CInv m0 s ∧
    (s.acts.length ≤ usizeMax → Q s)
  suffices hh : P (after env m0 (pre ++ .start mt tid args :: post)) by
    rcases ((hh.2.2 hfit).2.2.2 act hact).2.2.2 hvia hpass with h | h | h | h
    · unfold Act.finished at hfin
      cases hpc : act.pc <;> simp [hpc, Pc.early] at h hfin
    · simp [Act.finished, h] at hfin
    · simp [Act.finished, h] at hfin
    · exact h
  have hrun : after env m0 (pre ++ .start mt tid args :: post) =
      CState.run env post ⟨(after env m0 pre).mem,
        (after env m0 pre).acts ++ [Act.start env mt tid args]⟩ := by
    rw [after_append]
    have : (after env m0 pre).step env (.start mt tid args) = ⟨(after env m0 pre).mem,
        (after env m0 pre).acts ++ [Act.start env mt tid args]⟩ := by
      unfold CState.step
      simp only
      rw [if_pos]
      rw [List.all_eq_true]
      intro x hx
      have := hfree x hx
      simpa using this
    simp only [CState.run, List.foldl_cons, this]
  rw [hrun]
  have hstart : ∀ s meth tid args, P s →
      P { s with acts := s.acts ++ [Act.start env meth tid args] } := by
    rintro s meth tid args ⟨hid, hi, ih⟩
    refine ⟨by simp; omega, hi.start meth tid args, fun hl => ?_⟩
    simp only [List.length_append, List.length_cons, List.length_nil] at hl
    obtain ⟨q1, q2, q3⟩ := ih (by omega)
    exact ⟨q1.start meth tid args, q2, q3.start hid meth tid args⟩
  refine CState.run_induct (P := P) ?_ (fun s meth tid args h _ => hstart s meth tid args h) ?_ post
  · refine ⟨by simp [id], (cinv_run env hq pre).start mt tid args, fun hl => ?_⟩
    simp only [List.length_append, List.length_cons, List.length_nil] at hl
    have hsi := cseqInv_run (env := env) hq hf pre (by omega)
    refine ⟨hsi.start mt tid args, ?_, ?_, ?_⟩
    · rcases Nat.eq_zero_or_pos k with h0 | hpos
      · omega
      · obtain ⟨b, hb, x, hx, hxv, v, hxd⟩ := hbefore (k - 1) (by omega)
        obtain ⟨c, hc⟩ := List.getElem?_of_mem hx
        have := hsi.late c x b (k - 1) hc hb hxv (by rw [hxd]; rfl)
        simp only
        omega
    · refine (ret_run hq pre a).imp (fun h => h) ?_
      rintro ⟨c, x, hx, h⟩
      refine ⟨c, x, ?_, h⟩
      simp only [acts_push]
      rw [if_neg, hx]
      intro hc
      rw [hc, List.getElem?_eq_none (Nat.le_refl _)] at hx
      cases hx
    · intro y hy
      simp only [acts_push, id] at hy
      rw [if_pos trivial] at hy
      cases hy
      simp [Act.start]
  · rintro s i x x' m' ⟨hid, hi, ih⟩ hx hs
    refine ⟨by simpa using hid, hi.step hx hs, fun hl => ?_⟩
    simp only [List.length_set] at hl
    obtain ⟨q1, q2, q3⟩ := ih hl
    refine ⟨q1.step hf hi hl hx hs, ?_, q3.step hf hm (fun _ => hans) hi q1 hl q2 hx hs⟩
    · rcases q1.level_step hi hx hs with h | ⟨_, _, _, _, h1, h2, _⟩
      · simp only; omega
      · simp only; omega

/-! ## Sequences with larger counts -/

/-- `f0` twice, then `f1`, then `f2`, in one sequence. -/
def twice : List (List (List (Build Nat))) :=
  [[[.times (.n 2), .inSequence 0, .returnConst 10]], [[.once, .inSequence 0, .returnConst 20]],
   [[.once, .inSequence 0, .returnConst 30]]]

/-- The two calls of `f0` overlap: both increment the count before either checks it. -/
def twiceRace : List (Sched Nat) :=
  [.start 0 1 [], .start 0 2 []] ++ steps (List.replicate 12 [0, 1]).flatten

/-- C39 does not extend to `times(n)` with `n > 1`.  The two calls that `f0` expects overlap, as the
order allows, and nothing else is called; one of them panics all the same.  It also advances the
sequence a second time: `f1`, whose turn it is, is rejected, and `f2` is accepted although `f1` was never called. -/
theorem C39_refuted :
    (demoMem twice).Quiet ∧
    (demoMem twice).member 0 0 0 ∧ (demoMem twice).member 0 1 1 ∧ (demoMem twice).member 0 2 2 ∧
    -- only the calls that are expected are made, and one is rejected
    (after (demoEnv twice) (demoMem twice) twiceRace).outcomes =
      [some (.ok 10), some (.error .seqResatisfied)] ∧
    -- the second member is rejected in its turn
    (after (demoEnv twice) (demoMem twice)
      (twiceRace ++ .start 1 1 [] :: steps (List.replicate 12 2))).outcomes =
      [some (.ok 10), some (.error .seqResatisfied), some (.error (.seqViolation "MockFoo::f1()"))] ∧
    -- the third member is accepted before the second was called
    (after (demoEnv twice) (demoMem twice)
      (twiceRace ++ .start 2 1 [] :: steps (List.replicate 12 2))).outcomes =
      [some (.ok 10), some (.error .seqResatisfied), some (.ok 30)] ∧
    ((after (demoEnv twice) (demoMem twice)
      (twiceRace ++ .start 2 1 [] :: steps (List.replicate 12 2))).mem.heap 1).count = 0 := by
  exact ⟨demoMem_quiet _ (by decide), rfl, rfl, rfl, by rfl, by rfl, by rfl, by rfl⟩

/-- `f0`, then `f1`, both once. -/
def single : List (List (List (Build Nat))) :=
  [[[.once, .inSequence 0, .returnConst 10]], [[.once, .inSequence 0, .returnConst 20]]]

theorem single_heap (a : Nat) (h : 2 ≤ a) : ((demoMem single).heap a).exp.common.seqHandle = none := by
  have : (demoSetup single 0 demoWorld).1.flatten[a]? = none := by
    rw [List.getElem?_eq_none]
    exact h
  simp only [demoMem]
  rw [List.getD_eq_getElem?_getD, this]
  rfl

theorem single_member {a k : Nat} (h : (demoMem single).member 0 a k) : a < 2 ∧ k = a := by
  rcases Nat.lt_or_ge a 2 with ha | ha
  · refine ⟨ha, ?_⟩
    unfold Mem.member at h
    match a, ha with
    | 0, _ =>
      have h' : (some ⟨0, 0⟩ : Option SeqHandle) = some ⟨0, k⟩ := h
      injection h' with h'
      injection h' with _ h'
      exact h'.symm
    | 1, _ =>
      have h' : (some ⟨0, 1⟩ : Option SeqHandle) = some ⟨0, k⟩ := h
      injection h' with h'
      injection h' with _ h'
      exact h'.symm
  · unfold Mem.member at h
    rw [single_heap a ha] at h
    cases h

/-- The hypotheses of C39 hold of a real mock, and its conclusions are about calls that happen: `f1` is
called by another thread while `f0` is still running its closure, and once `f0` has finished. -/
theorem single_fresh : (demoMem single).Quiet ∧ (demoMem single).Fresh1 0 := by
  refine ⟨demoMem_quiet _ (by decide), ?_, ?_, ?_, rfl⟩
  · intro a k h
    obtain ⟨ha, _⟩ := single_member h
    match a, ha with
    | 0, _ => rfl
    | 1, _ => rfl
  · intro a b k ha hb
    rw [← (single_member ha).2, ← (single_member hb).2]
  · intro a k h
    obtain ⟨ha, _⟩ := single_member h
    match a, ha with
    | 0, _ => rfl
    | 1, _ => rfl

example : (after (demoEnv single) (demoMem single)
    ([.start 0 1 []] ++ steps (List.replicate 9 0) ++ [.start 1 2 []] ++
      steps (List.replicate 10 [1, 0]).flatten)).outcomes = [some (.ok 10), some (.ok 20)] := by rfl

example : (after (demoEnv single) (demoMem single)
    ([.start 0 1 []] ++ steps (List.replicate 6 0) ++ [.start 1 2 []] ++
      steps (List.replicate 5 1) ++ steps (List.replicate 10 0))).outcomes =
    [some (.ok 10), some (.error (.seqViolation "MockFoo::f1()"))] := by rfl

example : ((demoMem single).heap 1).exp.Answers false none 2 [] := ⟨rfl, 20, rfl⟩

end Mockall
