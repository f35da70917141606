import Verif.Props.ConcSeq
import Verif.Lemmas.Ret

/-! # Sequences of any counts under concurrency, when calls to the same member do not overlap (C39) -/

set_option linter.unusedSimpArgs false

namespace Mockall

variable {V : Type}

/-- A sequence all of whose members have an exact count, as `in_sequence` demands (F:973-974), none of which has been
called yet.  No two expectations have the same place. -/
structure Mem.FreshN (m : Mem V) (sid : Nat) : Prop where
  exact : ∀ a k, m.member sid a k → ∃ n, 1 ≤ n ∧ (m.heap a).exp.common.times.range = ⟨n, n + 1⟩
  uniq : ∀ a b k, m.member sid a k → m.member sid b k → a = b
  zero : ∀ a k, m.member sid a k → (m.heap a).count = 0
  level : (m.seqs sid).level = 0

/-- How many calls expectation `a` is to get. -/
def Mem.quota (m : Mem V) (a : Nat) : Nat := (m.heap a).exp.common.times.range.start

/-- Two calls that have been handed to the same member of the sequence, which is to be called more than once, are not
both in progress. -/
def CState.Apart (m0 : Mem V) (sid : Nat) (s : CState V) : Prop :=
  ∀ (c d : Nat) (x y : Act V) (a k : Nat), s.acts[c]? = some x → s.acts[d]? = some y → m0.member sid a k →
    1 < m0.quota a → x.via = some a → y.via = some a → x.finished = false → y.finished = false → c = d

/-- A call handed to `a` that has got past the count and the sequence and has not panicked. -/
def Act.lateAt (a : Nat) (act : Act V) : Bool := act.via == some a && act.pc.late

/-- The invariant. -/
structure NSeqInv (m0 : Mem V) (sid : Nat) (s : CState V) : Prop where
  verified : ∀ (c : Nat) (act : Act V) (a k : Nat), s.acts[c]? = some act → m0.member sid a k →
    act.pc.verified = some a → (s.mem.seqs sid).level = k
  enough : ∀ (c : Nat) (act : Act V) (a k : Nat), s.acts[c]? = some act → m0.member sid a k →
    (act.pc = .loadHigh a true ∨ act.pc = .satisfy a) → m0.quota a ≤ s.acts.countP (Act.counted a)
  few : ∀ (c : Nat) (act : Act V) (a k : Nat), s.acts[c]? = some act → m0.member sid a k →
    act.pc = .loadHigh a false → s.acts.countP (Act.counted a) < m0.quota a
  late : ∀ (c : Nat) (act : Act V) (a k : Nat), s.acts[c]? = some act → m0.member sid a k →
    act.via = some a → act.pc.late = true → k ≤ (s.mem.seqs sid).level
  over : ∀ a k, m0.member sid a k → k < (s.mem.seqs sid).level →
    m0.quota a ≤ s.acts.countP (Act.counted a) ∧
    ∀ (c : Nat) (act : Act V), s.acts[c]? = some act → act.via = some a → act.pc.early = false
  open_ : ∀ a k, m0.member sid a k → (s.mem.seqs sid).level ≤ k → s.acts.countP (Act.lateAt a) < m0.quota a

theorem Mem.FreshN.end_ {m0 : Mem V} {sid : Nat} (hf : m0.FreshN sid) {a k : Nat} (hm : m0.member sid a k) :
    1 ≤ m0.quota a ∧ (m0.heap a).exp.common.times.range.end_ = m0.quota a + 1 := by
  obtain ⟨n, h1, h2⟩ := hf.exact a k hm
  simp only [Mem.quota, h2]
  exact ⟨h1, trivial⟩

/-- As many calls pass as are counted, up to the quota. -/
theorem passed_min {m0 : Mem V} {sid : Nat} (hf : m0.FreshN sid) {s : CState V} (hi : CInv m0 s)
    (hl : s.acts.length ≤ usizeMax) {a k : Nat} (hm : m0.member sid a k) :
    s.acts.countP (Act.passedAt a) = min (s.acts.countP (Act.counted a)) (m0.quota a) := by
  have hp := hi.passed a
  have hle := List.countP_le_length (p := Act.counted a) (l := s.acts)
  rw [hf.zero a k hm, (hf.end_ hm).2] at hp
  have := hp (by omega)
  omega

theorem count_eq {m0 : Mem V} {sid : Nat} (hf : m0.FreshN sid) {s : CState V} (hi : CInv m0 s)
    (hl : s.acts.length ≤ usizeMax) {a k : Nat} (hm : m0.member sid a k) :
    (s.mem.heap a).count = s.acts.countP (Act.counted a) := by
  have hle := List.countP_le_length (p := Act.counted a) (l := s.acts)
  rw [hi.count a, hf.zero a k hm, Nat.mod_eq_of_lt (by omega)]
  omega

/-- At most one call is between the count and the end of the call. -/
theorem alone {m0 : Mem V} {sid : Nat} (hf : m0.FreshN sid) {s : CState V} (hi : CInv m0 s)
    (ha : s.Apart m0 sid) (hl : s.acts.length ≤ usizeMax) {a k : Nat} (hm : m0.member sid a k) {c d : Nat}
    {x y : Act V} (hc : s.acts[c]? = some x) (hd : s.acts[d]? = some y) (hxv : x.via = some a) (hxp : x.passed = true)
    (hxf : x.finished = false) (hyv : y.via = some a) (hyp : y.passed = true) (hyf : y.finished = false) : c = d := by
  by_cases h1 : 1 < m0.quota a
  · exact ha c d x y a k hc hd hm h1 hxv hyv hxf hyf
  · by_cases hcd : c = d
    · exact hcd
    · have h2 := countP_two (p := Act.passedAt a) hcd hc hd (by simp [Act.passedAt, hxv, hxp])
        (by simp [Act.passedAt, hyv, hyp])
      rw [passed_min hf hi hl hm] at h2
      omega

theorem Pc.early_coh {act : Act V} (hc : act.Coh) (h : act.pc.early = true) :
    act.passed = true ∧ act.finished = false ∧ act.pc.late = false := by
  unfold Act.Coh at hc
  unfold Act.finished
  cases hpc : act.pc <;> simp [hpc, Pc.early] at h hc
  all_goals exact ⟨hc.2, rfl, rfl⟩

theorem NSeqInv.init {m0 : Mem V} {sid : Nat} (hf : m0.FreshN sid) : NSeqInv m0 sid ⟨m0, []⟩ := by
  refine ⟨by simp, by simp, by simp, by simp, ?_, ?_⟩
  · intro a k _ hlt
    simp only [hf.level] at hlt
    omega
  · intro a k hm _
    have := (hf.end_ hm).1
    simp only [List.countP_nil]
    omega

theorem NSeqInv.start {env : CEnv V} {m0 : Mem V} {sid : Nat} {s : CState V} (h : NSeqInv m0 sid s)
    (meth tid : Nat) (args : List V) :
    NSeqInv m0 sid { s with acts := s.acts ++ [Act.start env meth tid args] } := by
  obtain ⟨h1, h2, h3, h4, h5, h6⟩ := h
  have hc : ∀ a, (s.acts ++ [Act.start env meth tid args]).countP (Act.counted a) = s.acts.countP (Act.counted a) := by
    intro a; simp [List.countP_append, Act.start, Act.counted]
  have hlt : ∀ a, (s.acts ++ [Act.start env meth tid args]).countP (Act.lateAt a) = s.acts.countP (Act.lateAt a) := by
    intro a; simp [List.countP_append, Act.start, Act.lateAt]
  refine ⟨?_, ?_, ?_, ?_, ?_, ?_⟩
  · intro c act a k hact hm hv
    simp only [acts_push] at hact
    split at hact
    · cases hact; simp [Act.start, Pc.verified] at hv
    · exact h1 c act a k hact hm hv
  · intro c act a k hact hm hv
    simp only [hc]
    simp only [acts_push] at hact
    split at hact
    · cases hact; simp [Act.start] at hv
    · exact h2 c act a k hact hm hv
  · intro c act a k hact hm hv
    simp only [hc]
    simp only [acts_push] at hact
    split at hact
    · cases hact; simp [Act.start] at hv
    · exact h3 c act a k hact hm hv
  · intro c act a k hact hm hv
    simp only [acts_push] at hact
    split at hact
    · cases hact; simp [Act.start] at hv
    · exact h4 c act a k hact hm hv
  · intro a k hm hlv
    simp only [hc]
    obtain ⟨g1, g2⟩ := h5 a k hm hlv
    refine ⟨g1, ?_⟩
    intro c act hact hv
    simp only [acts_push] at hact
    split at hact
    · cases hact; simp [Act.start] at hv
    · exact g2 c act hact hv
  · intro a k hm hlv
    simp only [hlt]
    exact h6 a k hm hlv

/-- What a step does to the level of the sequence. -/
theorem NSeqInv.level_step {env : CEnv V} {m0 : Mem V} {sid : Nat} {s : CState V}
    (h : NSeqInv m0 sid s) (hi : CInv m0 s) {id : Nat}
    {act act' : Act V} {m' : Mem V} (hact : s.acts[id]? = some act)
    (hs : Act.Step env id act s.mem act' m') :
    ((m'.seqs sid).level = (s.mem.seqs sid).level ∧ ∀ a k, m0.member sid a k → act.pc ≠ .satisfy a) ∨
      ∃ a k, act.pc = .satisfy a ∧ m0.member sid a k ∧ (s.mem.seqs sid).level = k ∧
        (m'.seqs sid).level = k + 1 ∧ act'.pc = .ret a ∧ act'.via = some a ∧ act'.passed = true := by
  have h1 := h.verified
  have hcoh := hi.coh id act hact
  rcases hs.seqs with h | ⟨a, hpc, h⟩
  · by_cases hsat : ∃ a k, m0.member sid a k ∧ act.pc = .satisfy a
    · exfalso
      obtain ⟨a, k, hm, hpc⟩ := hsat
      have hlv := h1 id act a k hact hm (by rw [hpc]; rfl)
      have hh : (s.mem.heap a).exp.common.seqHandle = some ⟨sid, k⟩ := by rw [(hi.same a).handle]; exact hm
      have := (hs.of_satisfy hpc).1
      rw [this] at h
      have h' := congrArg (fun q => (q sid).level) h
      simp [Common.satisfySequence, hh, Seqs.satisfy, hlv, Seqs.set] at h'
    · left
      refine ⟨by rw [h], fun a k hm hpc => hsat ⟨a, k, hm, hpc⟩⟩
  · cases hh : (s.mem.heap a).exp.common.seqHandle with
    | none =>
      left
      refine ⟨by rw [h]; simp [Common.satisfySequence, hh], ?_⟩
      intro b k hm hb
      rw [hpc] at hb
      cases hb
      have : (s.mem.heap a).exp.common.seqHandle = some ⟨sid, k⟩ := by rw [(hi.same a).handle]; exact hm
      rw [hh] at this; cases this
    | some hd =>
      by_cases hsid : hd.sid = sid
      · right
        have hm : m0.member sid a hd.seq := by
          unfold Mem.member
          rw [← (hi.same a).handle, hh, ← hsid]
        have hlv := h1 id act a hd.seq hact hm (by rw [hpc]; rfl)
        simp only [Act.Coh, hpc] at hcoh
        have hsat : (s.mem.heap a).exp.common.satisfySequence s.mem.seqs =
            (.ok (), s.mem.seqs.set hd.sid { s.mem.seqs hd.sid with
              level := (s.mem.seqs hd.sid).level + 1 }) := by
          simp only [Common.satisfySequence, hh, Seqs.satisfy]
          rw [if_pos (by rw [hsid]; exact hlv)]
        refine ⟨a, hd.seq, hpc, hm, hlv, ?_, ?_⟩
        · rw [h, hsat]
          simp [Seqs.set, hsid, hlv]
        · rcases (hs.of_satisfy hpc).2 with ⟨p, hp, _⟩ | ⟨_, ha⟩
          · rw [hsat] at hp; cases hp
          · rw [ha]; exact ⟨rfl, hcoh.1, hcoh.2⟩
      · left
        have hsid' : ¬ sid = hd.sid := fun he => hsid he.symm
        constructor
        · rw [h]
          simp only [Common.satisfySequence, hh, Seqs.satisfy]
          split <;> simp [Seqs.set, hsid']
        · intro b k hm hb
          rw [hpc] at hb
          cases hb
          have : (s.mem.heap a).exp.common.seqHandle = some ⟨sid, k⟩ := by rw [(hi.same a).handle]; exact hm
          rw [hh] at this; cases this
          exact hsid rfl

/-- How many are counted, and how that changes. -/
theorem counted_step {env : CEnv V} {m0 : Mem V} {s : CState V} (hi : CInv m0 s) {id : Nat} {act act' : Act V}
    {m' : Mem V} (hact : s.acts[id]? = some act) (hs : Act.Step env id act s.mem act' m') (a : Nat) :
    ((s.acts.set id act').countP (Act.counted a) = s.acts.countP (Act.counted a) ∧ act'.passedAt a = act.passedAt a) ∨
    ((s.acts.set id act').countP (Act.counted a) = s.acts.countP (Act.counted a) + 1 ∧ act.pc = .inc a) := by
  have h1 := countP_set (Act.counted a) s.acts id act act' hact
  rcases hs.count (hi.coh id act hact) a with ⟨_, e2, e3⟩ | ⟨_, e1, e2, e3, _⟩
  · left; rw [e2] at h1; exact ⟨by omega, e3⟩
  · right; simp [e2, e3] at h1; exact ⟨h1, e1⟩

theorem Act.Step.to_loadHigh {env : CEnv V} {id : Nat} {act act' : Act V} {m m' : Mem V}
    (h : Act.Step env id act m act' m') {a : Nat} {low : Bool} (hp : act'.pc = .loadHigh a low) :
    act.pc = .loadLow a ∧ low = decide ((m.heap a).count ≥ (m.heap a).exp.common.times.range.start) := by
  cases h
  case loadLow b hpc =>
    simp only [Act.goto, Pc.loadHigh.injEq] at hp
    obtain ⟨rfl, rfl⟩ := hp
    exact ⟨hpc, rfl⟩
  all_goals simp [Act.goto] at hp

theorem Act.Step.to_early {env : CEnv V} {id : Nat} {act act' : Act V} {m m' : Mem V}
    (h : Act.Step env id act m act' m') (hp : act'.pc.early = true) : act.pc.early = true ∨ ∃ a, act.pc = .inc a := by
  cases h
  case incOk a hpc _ => exact .inr ⟨a, hpc⟩
  case verifyOk a hpc _ => left; rw [hpc]; rfl
  case loadLow a hpc => left; rw [hpc]; rfl
  case highEnough a hpc => left; rw [hpc]; rfl
  all_goals simp [Act.goto, Pc.early] at hp

theorem Act.Step.to_late {env : CEnv V} {id : Nat} {act act' : Act V} {m m' : Mem V}
    (h : Act.Step env id act m act' m') (hc : act.Coh) {a : Nat} (hv : act'.via = some a) (hp : act'.pc.late = true) :
    (act.pc.late = true ∧ act.via = some a) ∨ act.pc = .loadHigh a false ∨ act.pc = .satisfy a := by
  cases h <;> simp_all [Act.goto, Pc.late, Act.Coh]

theorem NSeqInv.step {env : CEnv V} {m0 : Mem V} {sid : Nat} (hf : m0.FreshN sid) {s : CState V}
    (hi : CInv m0 s) (ha : s.Apart m0 sid) (hl : s.acts.length ≤ usizeMax) (h0 : NSeqInv m0 sid s) {id : Nat}
    {act act' : Act V} {m' : Mem V} (hact : s.acts[id]? = some act)
    (hs : Act.Step env id act s.mem act' m') :
    NSeqInv m0 sid { mem := m', acts := s.acts.set id act' } := by
  have ⟨h1, h2, h3, h4, h5, h6⟩ := h0
  have hcoh := hi.coh id act hact
  have hhandle : ∀ a k, m0.member sid a k → (s.mem.heap a).exp.common.seqHandle = some ⟨sid, k⟩ :=
    fun a k hm => by rw [(hi.same a).handle]; exact hm
  have hlevel := h0.level_step hi hact hs
  have hmono : (s.mem.seqs sid).level ≤ (m'.seqs sid).level := by
    rcases hlevel with ⟨h, _⟩ | ⟨_, _, _, _, h1', h, _⟩ <;> omega
  have hcmono : ∀ a, s.acts.countP (Act.counted a) ≤ (s.acts.set id act').countP (Act.counted a) := by
    intro a
    rcases counted_step hi hact hs a with ⟨h, _⟩ | ⟨h, _⟩ <;> omega
  refine ⟨?_, ?_, ?_, ?_, ?_, ?_⟩
  -- verified
  · intro c x a k hx hm hv
    simp only [acts_set hact] at hx
    split at hx
    next hc =>
      cases hx
      cases hs
      case verifyOk b hpc hver =>
        simp only [Act.goto, Pc.verified] at hv
        cases hv
        simp only [Common.verifySequence, hhandle a k hm, Seqs.verify] at hver
        split at hver
        next he => exact he.symm
        next => cases hver
      case loadLow b hpc =>
        simp only [Act.goto, Pc.verified] at hv
        cases hv
        exact h1 id act a k hact hm (by rw [hpc]; rfl)
      case highEnough b hpc =>
        simp only [Act.goto, Pc.verified] at hv
        cases hv
        exact h1 id act a k hact hm (by rw [hpc]; rfl)
      all_goals simp [Act.goto, Pc.verified] at hv
    next hc =>
      have hk := h1 c x a k hx hm hv
      rcases hlevel with ⟨h, _⟩ | ⟨b, k', hpc, hm', hk', h, hpc', _⟩
      · simp only; rw [h]; exact hk
      · exfalso
        have : k' = k := by omega
        subst this
        have hab := hf.uniq a b k' hm hm'
        subst hab
        obtain ⟨v1, v2, v3, _⟩ := Pc.verified_coh (hi.coh c x hx) hv
        simp only [Act.Coh, hpc] at hcoh
        exact hc (alone hf hi ha hl hm hx hact v1 v2 (Pc.early_coh (hi.coh c x hx) v3).2.1 hcoh.1 hcoh.2
          (by simp [Act.finished, hpc]))
  -- enough
  · intro c x a k hx hm hv
    simp only [acts_set hact] at hx
    split at hx
    next hc =>
      cases hx
      refine Nat.le_trans ?_ (hcmono a)
      cases hs
      case loadLow b hpc =>
        rcases hv with hv | hv
        · simp only [Act.goto, Pc.loadHigh.injEq, decide_eq_true_eq] at hv
          obtain ⟨rfl, hv⟩ := hv
          rw [count_eq hf hi hl hm, (hi.same b).range] at hv
          exact hv
        · simp [Act.goto] at hv
      case highEnough b hpc =>
        rcases hv with hv | hv
        · simp [Act.goto] at hv
        · simp only [Act.goto, Pc.satisfy.injEq] at hv
          subst hv
          exact h2 id act b k hact hm (.inl hpc)
      all_goals simp [Act.goto] at hv
    next hc => exact Nat.le_trans (h2 c x a k hx hm hv) (hcmono a)
  -- few
  · intro c x a k hx hm hv
    simp only [acts_set hact] at hx
    split at hx
    next hc =>
      cases hx
      rcases counted_step hi hact hs a with ⟨h, _⟩ | ⟨_, hinc⟩
      · simp only; rw [h]
        have hd := of_decide_eq_false (hs.to_loadHigh hv).2.symm
        rw [count_eq hf hi hl hm, (hi.same a).range] at hd
        exact Nat.lt_of_not_le hd
      · have := (hs.to_loadHigh hv).1
        rw [hinc] at this; cases this
    next hc =>
      have hlt := h3 c x a k hx hm hv
      rcases counted_step hi hact hs a with ⟨h, _⟩ | ⟨_, hinc⟩
      · simp only; rw [h]; exact hlt
      · exfalso
        have hcx := hi.coh c x hx
        simp only [Act.Coh, hv] at hcx
        simp only [Act.Coh, hinc] at hcoh
        have hpos : 1 ≤ s.acts.countP (Act.counted a) :=
          List.countP_pos_iff.mpr ⟨x, List.mem_of_getElem? hx, by simp [Act.counted, hv, hcx.1]⟩
        exact hc (ha c id x act a k hx hact hm (by omega) hcx.1 hcoh.1 (by simp [Act.finished, hv])
          (by simp [Act.finished, hinc]))
  -- late
  · intro c x a k hx hm hvia hlate
    simp only [acts_set hact] at hx
    refine Nat.le_trans ?_ hmono
    split at hx
    next hc =>
      cases hx
      rcases hs.to_late hcoh hvia hlate with ⟨w1, w2⟩ | w | w
      · exact h4 id act a k hact hm w2 w1
      · exact Nat.le_of_eq (h1 id act a k hact hm (by rw [w]; rfl)).symm
      · exact Nat.le_of_eq (h1 id act a k hact hm (by rw [w]; rfl)).symm
    next hc => exact h4 c x a k hx hm hvia hlate
  -- over
  · intro a k hm hlt
    simp only at hlt
    have hold : k < (s.mem.seqs sid).level → m0.quota a ≤ (s.acts.set id act').countP (Act.counted a) ∧
        ∀ (c : Nat) (x : Act V), (s.acts.set id act')[c]? = some x → x.via = some a → x.pc.early = false := by
      intro hlt'
      obtain ⟨g1, g2⟩ := h5 a k hm hlt'
      refine ⟨Nat.le_trans g1 (hcmono a), ?_⟩
      intro c x hx hxv
      simp only [acts_set hact] at hx
      split at hx
      next hc =>
        cases hx
        rcases hb : act'.pc.early with _ | _
        · rfl
        · exfalso
          have hc' := hs.coh hcoh
          have he := Pc.early_coh hc' hb
          -- it is counted and passes only now
          rcases counted_step hi hact hs a with ⟨_, hpa⟩ | ⟨hcnt, hinc⟩
          · have hpa' : act.passedAt a = true := by
              rw [← hpa]; simp [Act.passedAt, hxv, he.1]
            simp only [Act.passedAt, Bool.and_eq_true, beq_iff_eq] at hpa'
            have hne := g2 id act hact hpa'.1
            rcases hs.to_early hb with w | ⟨b, w⟩
            · rw [hne] at w; cases w
            · simp only [Act.Coh, w] at hcoh
              rw [hcoh.2] at hpa'
              exact absurd hpa'.2 (by simp)
          · have hi' : CInv m0 { mem := m', acts := s.acts.set id act' } := hi.step hact hs
            have q1 := passed_min hf hi hl hm
            have q2 := passed_min hf hi' (by simpa using hl) hm
            have q3 := countP_set (Act.passedAt a) s.acts id act act' hact
            simp only [Act.Coh, hinc] at hcoh
            have e1 : act.passedAt a = false := by simp [Act.passedAt, hcoh.2]
            have e2 : act'.passedAt a = true := by simp [Act.passedAt, hxv, he.1]
            simp [e1, e2] at q3
            simp only at q2
            omega
      next hc => exact g2 c x hx hxv
    rcases hlevel with ⟨h, _⟩ | ⟨b, k', hpc, hm', hk', h, hpc', hv', hp'⟩
    · exact hold (by omega)
    · by_cases hkk : k = k'
      · subst hkk
        have := hf.uniq a b k hm hm'
        subst this
        refine ⟨Nat.le_trans (h2 id act a k hact hm (.inr hpc)) (hcmono a), ?_⟩
        intro c x hx hxv
        simp only [acts_set hact] at hx
        split at hx
        next hc => cases hx; rw [hpc']; rfl
        next hc =>
          rcases hb : x.pc.early with _ | _
          · rfl
          · exfalso
            have he := Pc.early_coh (hi.coh c x hx) hb
            simp only [Act.Coh, hpc] at hcoh
            exact hc (alone hf hi ha hl hm hx hact hxv he.1 he.2.1 hcoh.1 hcoh.2 (by simp [Act.finished, hpc]))
      · exact hold (by omega)
  -- open
  · intro a k hm hle
    simp only at hle
    have hle' : (s.mem.seqs sid).level ≤ k := by omega
    have hb := h6 a k hm hle'
    have hset := countP_set (Act.lateAt a) s.acts id act act' hact
    rcases hn : act'.lateAt a with _ | _
    · simp only [hn] at hset ⊢
      simp at hset
      omega
    · rcases ho : act.lateAt a with _ | _
      · -- it has just become late
        simp only [Act.lateAt, Bool.and_eq_true, beq_iff_eq] at hn
        have hwas : act.pc = .loadHigh a false ∨ act.pc = .satisfy a := by
          rcases hs.to_late hcoh hn.1 hn.2 with ⟨w1, w2⟩ | w
          · simp [Act.lateAt, w1, w2] at ho
          · exact w
        rcases hwas with w | w
        · have hfew := h3 id act a k hact hm w
          simp only [Act.Coh, w] at hcoh
          have hlt : s.acts.countP (Act.lateAt a) + 1 ≤ s.acts.countP (Act.counted a) := by
            have hset' := countP_set (Act.lateAt a) s.acts id act act' hact
            rw [ho, if_neg (by simp), if_pos (by simp only [Act.lateAt, hn.1, hn.2]; simp)] at hset'
            have hsub : (s.acts.set id act').countP (Act.lateAt a) ≤
                (s.acts.set id act').countP (Act.counted a) := by
              apply List.countP_mono_left
              intro x _ hx
              simp only [Act.lateAt, Bool.and_eq_true, beq_iff_eq] at hx
              simp only [Act.counted, hx.1]
              cases hpx : x.pc <;> simp_all [Pc.late]
            rcases counted_step hi hact hs a with ⟨h, _⟩ | ⟨_, h⟩
            · omega
            · rw [w] at h; cases h
          simp only
          have : (s.acts.set id act').countP (Act.lateAt a) ≤ s.acts.countP (Act.lateAt a) + 1 := by
            split at hset <;> split at hset <;> omega
          omega
        · exfalso
          rcases hlevel with ⟨_, h⟩ | ⟨b, k', hpc, hm', hk', h, _⟩
          · exact h a k hm w
          · rw [w] at hpc
            cases hpc
            unfold Mem.member at hm hm'
            rw [hm] at hm'
            simp at hm'
            omega
      · simp only [hn, ho] at hset ⊢
        simp at hset
        omega

/-- `Apart` at every moment of a run. -/
def AlwaysApart (env : CEnv V) (m0 : Mem V) (sid : Nat) (sch : List (Sched V)) : Prop :=
  ∀ pre post, sch = pre ++ post → (after env m0 pre).Apart m0 sid

theorem after_snoc (env : CEnv V) (m0 : Mem V) (sch : List (Sched V)) (x : Sched V) :
    after env m0 (sch ++ [x]) = (after env m0 sch).step env x := by
  rw [after_append]; rfl

/-- A scheduling decision does nothing, starts a call or makes a step. -/
theorem CState.step_cases (env : CEnv V) (s : CState V) (x : Sched V) :
    s.step env x = s ∨
    (∃ meth tid args, s.step env x = { s with acts := s.acts ++ [Act.start env meth tid args] }) ∨
    (∃ id act act' m', s.acts[id]? = some act ∧ Act.Step env id act s.mem act' m' ∧
      s.step env x = { mem := m', acts := s.acts.set id act' }) := by
  cases x with
  | start meth tid args =>
    unfold CState.step
    simp only
    split
    · exact .inr (.inl ⟨meth, tid, args, rfl⟩)
    · exact .inl rfl
  | step id =>
    unfold CState.step
    simp only
    split
    · exact .inl rfl
    next act hact =>
      split
      · exact .inl rfl
      next r hr => exact .inr (.inr ⟨id, act, r.1, r.2, hact, Act.step_rel hr, rfl⟩)

theorem nseqInv_run {env : CEnv V} {m0 : Mem V} (hq : m0.Quiet) {sid : Nat} (hf : m0.FreshN sid)
    (sch : List (Sched V)) (hap : AlwaysApart env m0 sid sch) (hfit : (after env m0 sch).acts.length ≤ usizeMax) :
    NSeqInv m0 sid (after env m0 sch) := by
  induction sch using snoc_induct with
  | nil => exact NSeqInv.init hf
  | snoc sch x ih =>
    have hap' : AlwaysApart env m0 sid sch := fun pre post h => hap pre (post ++ [x]) (by rw [h]; simp)
    have hnow := hap sch [x] rfl
    have hi := cinv_run env hq sch
    rw [after_snoc] at hfit ⊢
    rcases CState.step_cases env (after env m0 sch) x with h | ⟨meth, tid, args, h⟩ | ⟨id, act, act', m', hact, hs, h⟩
    · rw [h] at hfit ⊢
      exact ih hap' hfit
    · rw [h] at hfit ⊢
      simp only [List.length_append, List.length_cons, List.length_nil] at hfit
      exact (ih hap' (by omega)).start meth tid args
    · rw [h] at hfit ⊢
      simp only [List.length_set] at hfit
      exact (ih hap' hfit).step hf hi hnow hfit hact hs

/-- **C39**, first half, for sequences of any counts, provided that calls to the same member do not overlap
(without that it is false, `C39_refuted`; members with count one are exempt).  In every interleaving: when a call to
member number `k` has returned, every earlier member has had all its calls. -/
theorem C39_counts_order_partial (env : CEnv V) (m0 : Mem V) (hq : m0.Quiet) (sid : Nat) (hf : m0.FreshN sid)
    (sch : List (Sched V)) (hap : AlwaysApart env m0 sid sch) (hfit : (after env m0 sch).acts.length ≤ usizeMax)
    (act : Act V) (hact : act ∈ (after env m0 sch).acts) (a k : Nat) (hm : m0.member sid a k)
    (hvia : act.via = some a) (v : V) (hv : act.pc = .done (.ok v))
    (b j : Nat) (hj : m0.member sid b j) (hjk : j < k) :
    ((after env m0 sch).acts.filter fun x => x.via == some b && x.passed).length = m0.quota b := by
  have h := nseqInv_run hq hf sch hap hfit
  obtain ⟨c, hc⟩ := List.getElem?_of_mem hact
  have hle := h.late c act a k hc hm hvia (by rw [hv]; rfl)
  have h1 := (h.over b j hj (by omega)).1
  have hi : CInv m0 (after env m0 sch) := cinv_run env hq sch
  have h2 := passed_min hf hi hfit hj
  rw [List.countP_eq_length_filter (p := Act.passedAt b)] at h2
  have h3 : ((after env m0 sch).acts.filter fun x => x.via == some b && x.passed).length =
      ((after env m0 sch).acts.filter (Act.passedAt b)).length := rfl
  omega

/-- The call has not been rejected. -/
def Act.Accepted (a : Nat) (y : Act V) : Prop :=
  y.via = some a → y.passed = true → y.pc.early = true ∨ y.pc = .ret a ∨ y.pc = .run a ∨ ∃ v, y.pc = .done (.ok v)

/-- A call that is in its turn is not rejected by its next step. -/
theorem accepted_step {env : CEnv V} {m0 : Mem V} {sid : Nat} {a k mt tid : Nat} {args : List V}
    (hm : m0.member sid a k) {s : CState V} {i : Nat} {x x' : Act V} {m' : Mem V}
    (hans : (s.mem.heap a).exp.Answers env.nightly (env.info mt).default tid args) (hi : CInv m0 s)
    (q1 : NSeqInv m0 sid s) (q2 : k ≤ (s.mem.seqs sid).level) (e1 : x.meth = mt) (e2 : x.tid = tid)
    (e3 : x.args = args) (e4 : x.Accepted a) (hx : s.acts[i]? = some x) (hs : Act.Step env i x s.mem x' m') :
    x'.Accepted a := by
  have hcoh := hi.coh i x hx
  intro hv hp
  have hlev : x.via = some a → x.pc.early = true → (s.mem.seqs sid).level = k := by
    intro h1 h3
    rcases Nat.lt_or_ge k (s.mem.seqs sid).level with hlt | hge
    · have := (q1.over a k hm hlt).2 i x hx h1
      rw [this] at h3; cases h3
    · omega
  have hhandle : (s.mem.heap a).exp.common.seqHandle = some ⟨sid, k⟩ := by
    rw [(hi.same a).handle]; exact hm
  unfold Act.Coh at hcoh
  unfold Expectation.Answers at hans
  cases hs
  case incOk b hpc hc => left; rfl
  case verifyOk b hpc hver => left; rfl
  case loadLow b hpc => left; rfl
  case highEnough b hpc => left; rfl
  case highFew b hpc =>
    simp only [hpc] at hcoh
    simp only [Act.goto] at hv hp
    rw [hv] at hcoh
    cases hcoh.1
    right; left; rfl
  case verifyFail b p hpc hver =>
    simp only [hpc] at hcoh
    simp only [Act.goto] at hv hp
    rw [hv] at hcoh
    cases hcoh.1
    have hl' := hlev hv (by rw [hpc]; rfl)
    simp [Common.verifySequence, hhandle, Seqs.verify, hl'] at hver
  case satFail b p hpc hsat =>
    simp only [hpc] at hcoh
    simp only [Act.goto] at hv hp
    rw [hv] at hcoh
    cases hcoh.1
    have hl' := hlev hv (by rw [hpc]; rfl)
    simp [Common.satisfySequence, hhandle, Seqs.satisfy, hl'] at hsat
  case satOk b hpc hsat =>
    simp only [hpc] at hcoh
    simp only [Act.goto] at hv hp
    rw [hv] at hcoh
    cases hcoh.1
    right; left; rfl
  case refOk b r v hpc hr hv' => right; right; right; exact ⟨v, rfl⟩
  case runOk b r poison o v hpc hr ho hv' => right; right; right; exact ⟨v, rfl⟩
  case retLock b r hpc hr free =>
    simp only [hpc] at hcoh
    simp only [Act.goto] at hv hp
    rw [hv] at hcoh
    cases hcoh.1
    right; right; left; rfl
  case refErr b r e hpc hr hv' =>
    simp only [hpc] at hcoh
    simp only [Act.goto] at hv hp
    rw [hv] at hcoh
    cases hcoh.1
    rw [hr] at hans
    obtain ⟨v, hans⟩ := hans
    rw [hv'] at hans; cases hans
  case retPoisoned b r hpc hr free =>
    simp only [hpc] at hcoh
    simp only [Act.goto] at hv hp
    rw [hv] at hcoh
    cases hcoh.1
    rw [hr] at hans
    exact absurd hans.1 (by simp)
  case refMut b r o hpc hr ho =>
    simp only [hpc] at hcoh
    simp only [Act.goto] at hv hp
    rw [hv] at hcoh
    cases hcoh.1
    rw [hr] at hans
    exact hans.elim
  case runErr b r poison o e hpc hr ho hv' =>
    simp only [hpc] at hcoh
    simp only [Act.goto] at hv hp
    rw [hv] at hcoh
    cases hcoh.1
    rw [hr] at hans
    obtain ⟨_, v, hans⟩ := hans
    rw [ho, e1, e2, e3] at hv'
    rw [hans] at hv'; cases hv'
  case runPanic b r poison o p hpc hr ho hv' =>
    simp only [hpc] at hcoh
    simp only [Act.goto] at hv hp
    rw [hv] at hcoh
    cases hcoh.1
    rw [hr] at hans
    obtain ⟨_, v, hans⟩ := hans
    rw [ho, e1, e2, e3] at hv'
    rw [hans] at hv'; cases hv'
  case runFail b e r poison hpc hr free =>
    simp only [Act.goto] at hv hp
    rcases e4 hv hp with h | h | h | ⟨v, h⟩ <;> rw [hpc] at h <;> simp [Pc.early] at h
  case refFail b e hpc free =>
    simp only [Act.goto] at hv hp
    rcases e4 hv hp with h | h | h | ⟨v, h⟩ <;> rw [hpc] at h <;> simp [Pc.early] at h
  all_goals
    exfalso
    simp_all [Act.goto]

/-- **C39**, second half, for sequences of any counts, provided that calls to the same member do not overlap.
Let a call start after all calls that the members before number `k` expect have returned.  If member `k` counts it as one
of its own (matched and within its count), then it is never rejected: in every interleaving, when it is over it has
returned a value (supposing the closure given to member `k` returns one at any time). -/
theorem C39_counts_accept_partial (env : CEnv V) (m0 : Mem V) (hq : m0.Quiet) (sid : Nat) (hf : m0.FreshN sid)
    (pre post : List (Sched V)) (mt tid : Nat) (args : List V) (a k : Nat) (hm : m0.member sid a k)
    (hap : AlwaysApart env m0 sid (pre ++ .start mt tid args :: post))
    (hfree : (after env m0 pre).threadFree tid)
    (hbefore : ∀ j, j < k → ∃ b, m0.member sid b j ∧ m0.quota b ≤ ((after env m0 pre).acts.filter fun x =>
      x.via == some b && (match x.pc with | .done (.ok _) => true | _ => false)).length)
    (hans : ∀ p q, post = p ++ q → ((after env m0 (pre ++ .start mt tid args :: p)).mem.heap a).exp.Answers
      env.nightly (env.info mt).default tid args)
    (hfit : (after env m0 (pre ++ .start mt tid args :: post)).acts.length ≤ usizeMax)
    (act : Act V)
    (hact : (after env m0 (pre ++ .start mt tid args :: post)).acts[(after env m0 pre).acts.length]? = some act)
    (hvia : act.via = some a) (hpass : act.passed = true) (hfin : act.finished = true) :
    ∃ v, act.pc = .done (.ok v) := by
  suffices hh : k ≤ ((after env m0 (pre ++ .start mt tid args :: post)).mem.seqs sid).level ∧
      ∃ y, (after env m0 (pre ++ .start mt tid args :: post)).acts[(after env m0 pre).acts.length]? = some y ∧
        y.meth = mt ∧ y.tid = tid ∧ y.args = args ∧ y.Accepted a by
    obtain ⟨_, y, hy, _, _, _, hacc⟩ := hh
    rw [hact] at hy
    cases hy
    rcases hacc hvia hpass with h | h | h | h
    · unfold Act.finished at hfin
      cases hpc : act.pc <;> simp [hpc, Pc.early] at h hfin
    · simp [Act.finished, h] at hfin
    · simp [Act.finished, h] at hfin
    · exact h
  clear hact hvia hpass hfin act
  induction post using snoc_induct with
  | nil =>
    have hrun : after env m0 (pre ++ [.start mt tid args]) = ⟨(after env m0 pre).mem,
        (after env m0 pre).acts ++ [Act.start env mt tid args]⟩ := by
      rw [after_snoc]
      unfold CState.step
      simp only
      rw [if_pos]
      rw [List.all_eq_true]
      intro x hx
      have := hfree x hx
      simpa using this
    rw [hrun] at hfit ⊢
    simp only [List.length_append, List.length_cons, List.length_nil] at hfit
    have hsi := nseqInv_run (env := env) hq hf pre (fun p q h => hap p (q ++ [.start mt tid args]) (by rw [h]; simp))
      (by omega)
    refine ⟨?_, Act.start env mt tid args, by simp, rfl, rfl, rfl, by intro h; simp [Act.start] at h⟩
    rcases Nat.eq_zero_or_pos k with h0 | hpos
    · omega
    · obtain ⟨b, hb, hn⟩ := hbefore (k - 1) (by omega)
      apply Nat.le_of_not_lt
      intro hc
      have h1 := hsi.open_ b (k - 1) hb (by simp only at hc; omega)
      rw [← List.countP_eq_length_filter] at hn
      have h2 : ((after env m0 pre).acts.countP fun x =>
          x.via == some b && (match x.pc with | .done (.ok _) => true | _ => false)) ≤
          (after env m0 pre).acts.countP (Act.lateAt b) := by
        apply List.countP_mono_left
        intro x _ hx
        simp only [Bool.and_eq_true] at hx
        simp only [Act.lateAt, hx.1, Bool.true_and]
        have hx2 := hx.2
        rcases hpx : x.pc with _ | _ | _ | _ | _ | _ | _ | _ | _ | _ | _ | _ | _ | r
        case done => cases r <;> rw [hpx] at hx2 <;> simp [Pc.late] at hx2 ⊢
        all_goals
          rw [hpx] at hx2
          simp at hx2
      omega
  | snoc post x ih =>
    have hreassoc : pre ++ .start mt tid args :: (post ++ [x]) = (pre ++ .start mt tid args :: post) ++ [x] := by simp
    rw [hreassoc] at hap hfit ⊢
    have hap' : AlwaysApart env m0 sid (pre ++ .start mt tid args :: post) :=
      fun p q h => hap p (q ++ [x]) (by rw [h]; simp)
    have hi : CInv m0 (after env m0 (pre ++ .start mt tid args :: post)) := cinv_run env hq _
    have hA := hans post [x] rfl
    rw [after_snoc] at hfit ⊢
    have hlen : (after env m0 (pre ++ .start mt tid args :: post)).acts.length ≤
        ((after env m0 (pre ++ .start mt tid args :: post)).step env x).acts.length := by
      rcases CState.step_cases env (after env m0 (pre ++ .start mt tid args :: post)) x with
        h | ⟨_, _, _, h⟩ | ⟨_, _, _, _, _, _, h⟩ <;> rw [h] <;> simp
    have hsi := nseqInv_run hq hf _ hap' (by omega)
    obtain ⟨hk, y, hy, e1, e2, e3, e4⟩ := ih hap' (fun p q h => hans p (q ++ [x]) (by rw [h]; simp)) (by omega)
    generalize after env m0 (pre ++ .start mt tid args :: post) = s at *
    generalize (after env m0 pre).acts.length = id at *
    rcases CState.step_cases env s x with h | ⟨meth', tid', args', h⟩ | ⟨i, z, z', m', hz, hs, h⟩
    · rw [h]; exact ⟨hk, y, hy, e1, e2, e3, e4⟩
    · rw [h]
      have hid : id < s.acts.length := (List.getElem?_eq_some_iff.mp hy).1
      exact ⟨hk, y, by simp only; rw [List.getElem?_append_left hid]; exact hy, e1, e2, e3, e4⟩
    · rw [h]
      refine ⟨?_, ?_⟩
      · rcases hsi.level_step hi hz hs with ⟨h, _⟩ | ⟨_, _, _, _, h1, h2, _⟩ <;> simp only <;> omega
      · by_cases hii : id = i
        · subst hii
          rw [hy] at hz
          cases hz
          obtain ⟨i1, i2, i3⟩ := hs.ident
          refine ⟨z', by simp [acts_set hy], by rw [i1, e1], by rw [i2, e2], by rw [i3, e3], ?_⟩
          exact accepted_step hm hA hi hsi hk e1 e2 e3 e4 hy hs
        · exact ⟨y, by simp [acts_set hz, hii, hy], e1, e2, e3, e4⟩

/-! ## The hypotheses can be met -/

theorem twice_heap (a : Nat) (h : 3 ≤ a) : ((demoMem twice).heap a).exp.common.seqHandle = none := by
  have : (demoSetup twice 0 demoWorld).1.flatten[a]? = none := by
    rw [List.getElem?_eq_none]
    exact h
  simp only [demoMem]
  rw [List.getD_eq_getElem?_getD, this]
  rfl

theorem twice_member {a k : Nat} (h : (demoMem twice).member 0 a k) : a < 3 ∧ k = a := by
  rcases Nat.lt_or_ge a 3 with ha | ha
  · refine ⟨ha, ?_⟩
    unfold Mem.member at h
    match a, ha with
    | 0, _ =>
      have h' : (some ⟨0, 0⟩ : Option SeqHandle) = some ⟨0, k⟩ := h
      injection h' with h'
      injection h' with _ h'
      exact h'.symm
    | 1, _ =>
      have h' : (some ⟨0, 1⟩ : Option SeqHandle) = some ⟨0, k⟩ := h
      injection h' with h'
      injection h' with _ h'
      exact h'.symm
    | 2, _ =>
      have h' : (some ⟨0, 2⟩ : Option SeqHandle) = some ⟨0, k⟩ := h
      injection h' with h'
      injection h' with _ h'
      exact h'.symm
  · unfold Mem.member at h
    rw [twice_heap a ha] at h
    cases h

/-- `f0` twice, then `f1`, then `f2`: the mock of `C39_refuted`. -/
theorem twice_fresh : (demoMem twice).Quiet ∧ (demoMem twice).FreshN 0 := by
  refine ⟨demoMem_quiet _ (by decide), ?_, ?_, ?_, rfl⟩
  · intro a k h
    obtain ⟨ha, _⟩ := twice_member h
    match a, ha with
    | 0, _ => exact ⟨2, by omega, rfl⟩
    | 1, _ => exact ⟨1, by omega, rfl⟩
    | 2, _ => exact ⟨1, by omega, rfl⟩
  · intro a b k ha hb
    rw [← (twice_member ha).2, ← (twice_member hb).2]
  · intro a k h
    obtain ⟨ha, _⟩ := twice_member h
    match a, ha with
    | 0, _ => rfl
    | 1, _ => rfl
    | 2, _ => rfl

/-- Only `f0` is to be called more than once; so it is enough to look at its calls. -/
theorem twice_apart (sch : List (Sched Nat)) (h : ∀ n ≤ sch.length, ((after (demoEnv twice) (demoMem twice)
    (sch.take n)).acts.countP fun x => x.via == some 0 && !x.finished) ≤ 1) :
    AlwaysApart (demoEnv twice) (demoMem twice) 0 sch := by
  intro pre post hsp c d x y a k hx hy hm hq hxv hyv hxf hyf
  have h0 : a = 0 := by
    obtain ⟨ha, _⟩ := twice_member hm
    match a, ha with
    | 0, _ => rfl
    | 1, _ => exact absurd hq (by decide)
    | 2, _ => exact absurd hq (by decide)
  subst h0
  have hn := h pre.length (by rw [hsp]; simp)
  rw [hsp, List.take_left] at hn
  by_cases hcd : c = d
  · exact hcd
  · have := countP_two (p := fun x : Act Nat => x.via == some 0 && !x.finished) hcd hx hy (by simp [hxv, hxf])
      (by simp [hyv, hyf])
    omega

/-- The first call of `f0` returns; the second has told the sequence but not returned when `f1` is called; then `f2`. -/
def twiceTurns : List (Sched Nat) :=
  [.start 0 1 []] ++ steps (List.replicate 10 0) ++ [.start 0 1 []] ++ steps (List.replicate 7 1) ++ [.start 1 2 []] ++
    steps (List.replicate 10 [2, 1]).flatten ++ [.start 2 1 []]

set_option maxRecDepth 16000 in
example : AlwaysApart (demoEnv twice) (demoMem twice) 0 (twiceTurns ++ steps (List.replicate 10 3)) ∧
    (after (demoEnv twice) (demoMem twice) (twiceTurns ++ steps (List.replicate 10 3))).outcomes =
      [some (.ok 10), some (.ok 10), some (.ok 20), some (.ok 30)] := by
  refine ⟨twice_apart _ ?_, rfl⟩
  decide +kernel

/-- Does the return function give a value? -/
def answersNow (e : Expectation Nat) (tid : Nat) : Bool :=
  match e.ret with
  | .static r poison => !poison && (match (r.callMut false none tid []).out with | .ok (.ok _) => true | _ => false)
  | _ => false

theorem answers_of_now {e : Expectation Nat} {tid : Nat} (h : answersNow e tid = true) :
    e.Answers false none tid [] := by
  unfold answersNow at h
  unfold Expectation.Answers
  split at h
  next r poison hr =>
    rw [hr]
    simp only [Bool.and_eq_true, Bool.not_eq_true'] at h
    refine ⟨h.1, ?_⟩
    have h2 := h.2
    split at h2
    next v hv => exact ⟨v, hv⟩
    next => cases h2
  next => cases h

/-- The call of `f2` at the end of `twiceTurns` meets the hypotheses of `C39_counts_accept_partial`. -/
example (n : Nat) (hn : n ≤ 10) (act : Act Nat)
    (hact : (after (demoEnv twice) (demoMem twice) (twiceTurns ++ steps (List.replicate n 3))).acts[3]? = some act)
    (hvia : act.via = some 2) (hpass : act.passed = true) (hfin : act.finished = true) :
    ∃ v, act.pc = .done (.ok v) := by
  let pre := twiceTurns.dropLast
  have hsplit : ∀ p, twiceTurns ++ p = pre ++ .start 2 1 [] :: p := fun p => by
    have : twiceTurns = pre ++ [.start 2 1 []] := rfl
    rw [this]; simp
  rw [hsplit] at hact
  refine C39_counts_accept_partial (demoEnv twice) (demoMem twice) twice_fresh.1 0 twice_fresh.2 pre
    (steps (List.replicate n 3)) 2 1 [] 2 2 rfl ?_ ?_ ?_ ?_ ?_ act hact hvia hpass hfin
  · rw [← hsplit]
    apply twice_apart
    clear hact
    revert hn
    revert n
    decide +kernel
  · unfold CState.threadFree
    decide +kernel
  · intro j hj
    match j, hj with
    | 0, _ => exact ⟨0, rfl, by decide +kernel⟩
    | 1, _ => exact ⟨1, rfl, by decide +kernel⟩
  · intro p q hpq
    apply answers_of_now
    have hp : p = steps (List.replicate p.length 3) ∧ p.length ≤ 10 := by
      have h1 : p = (steps (List.replicate n 3)).take p.length := by rw [hpq]; simp
      have h2 := congrArg List.length hpq
      simp [steps] at h2
      refine ⟨?_, by omega⟩
      have h3 : (steps (List.replicate n 3)).take p.length = steps (List.replicate p.length 3) := by
        simp [steps, List.map_replicate, List.take_replicate]
        omega
      rw [← h3]; exact h1
    rw [hp.1, ← hsplit]
    have h3 := hp.2
    generalize p.length = m at h3
    clear hp hpq hact
    revert h3
    revert m
    decide +kernel
  · rw [← hsplit]
    clear hact
    have : ∀ m ≤ 10, (after (demoEnv twice) (demoMem twice) (twiceTurns ++ steps (List.replicate m 3))).acts.length ≤
        4 := by decide +kernel
    exact Nat.le_trans (this n hn) (by decide)

/-- The race of `C39_refuted` does not keep the calls of `f0` apart. -/
example : ¬ AlwaysApart (demoEnv twice) (demoMem twice) 0 twiceRace := by
  intro h
  have := h (twiceRace.take 10) (twiceRace.drop 10) (List.take_append_drop 10 twiceRace).symm 0 1 _ _ 0 0 rfl rfl rfl
    (by decide) rfl rfl rfl rfl
  cases this

end Mockall
