import Verif.Props.ConcOrder
import Verif.Props.ConcSeqApart

/-! # Exhausted expectations under concurrency, when two calls do not compete for the last place (C37) -/

set_option linter.unusedSimpArgs false

namespace Mockall

variable {V : Type}

/-- `a` does not match these arguments, or has already had all its calls. -/
def Mem.Past (m0 m : Mem V) (tid : Nat) (args : List V) (a : Nat) : Prop :=
  (m0.heap a).exp.common.matcher.matches tid args = .ok false ∨
  ((m0.heap a).exp.common.matcher.matches tid args = .ok true ∧
    (m0.heap a).exp.common.times.range.end_ ≤ (m.heap a).count + 1)

/-- No two calls have both found room in the same expectation of the method without either having been counted yet. -/
def CState.NoRace (env : CEnv V) (mt : Nat) (s : CState V) : Prop :=
  ∀ (c d : Nat) (x y : Act V) (a : Nat), s.acts[c]? = some x → s.acts[d]? = some y → a ∈ env.vec mt →
    x.pc = .inc a → y.pc = .inc a → c = d

/-- `NoRace` at every moment of a run. -/
def NeverRaces (env : CEnv V) (m0 : Mem V) (mt : Nat) (sch : List (Sched V)) : Prop :=
  ∀ pre post, sch = pre ++ post → (after env m0 pre).NoRace env mt

/-- No two calls handed to the same expectation of the method are in progress at once. -/
def CallsApart (env : CEnv V) (m0 : Mem V) (mt : Nat) (sch : List (Sched V)) : Prop :=
  ∀ pre post, sch = pre ++ post →
    ∀ (c d : Nat) (x y : Act V) (a : Nat), (after env m0 pre).acts[c]? = some x →
      (after env m0 pre).acts[d]? = some y → a ∈ env.vec mt → x.via = some a → y.via = some a →
      x.finished = false → y.finished = false → c = d

/-- Where a call of the method can be. -/
def Act.OnWay (env : CEnv V) (m0 m : Mem V) (act : Act V) : Prop :=
  (∃ front l, env.vec act.meth = front ++ l ∧ (∀ x ∈ front, m0.Past m act.tid act.args x) ∧
    (act.pc = .scan l ∨ (l = [] ∧ act.via = none ∧ act.pc = .done (.error (.noMatch (callDesc (env.cx act)
      (env.info act.meth) act.args)))) ∨
     ∃ a k, l = a :: k ∧ (act.pc = .matching a k ∨
       ((m0.heap a).exp.common.matcher.matches act.tid act.args = .ok true ∧
         (act.pc = .check a k ∨ (act.pc = .inc a ∧ (m.heap a).count + 1 < (m0.heap a).exp.common.times.range.end_) ∨
          (act.via = some a ∧ act.passed = true))))))

theorem Mem.Past.mono {m0 m m' : Mem V} {tid a : Nat} {args : List V} (h : m0.Past m tid args a)
    (hle : (m.heap a).count ≤ (m'.heap a).count) : m0.Past m' tid args a := by
  rcases h with h | ⟨h1, h2⟩
  · exact .inl h
  · exact .inr ⟨h1, by omega⟩

theorem isDone_count {m0 m : Mem V} {a : Nat} (hsame : (m.heap a).Same (m0.heap a))
    (hpos : 0 < (m0.heap a).exp.common.times.range.end_) :
    (m.heap a).exp.isDone = .ok (decide ((m0.heap a).exp.common.times.range.end_ ≤ (m.heap a).count + 1)) := by
  simp only [Expectation.isDone, Common.isDone, Times.isDone, hsame.range, subOne]
  rw [if_neg (by omega)]
  simp only [Except.ok.injEq, decide_eq_decide]
  change (m.heap a).count ≥ _ ↔ _
  omega

/-- Steps of other calls. -/
theorem Act.OnWay.mono {env : CEnv V} {m0 m m' : Mem V} {act : Act V} (h : act.OnWay env m0 m)
    (hle : ∀ x ∈ env.vec act.meth, (m.heap x).count ≤ (m'.heap x).count)
    (hinc : ∀ a, act.pc = .inc a → a ∈ env.vec act.meth → (m'.heap a).count = (m.heap a).count) :
    act.OnWay env m0 m' := by
  obtain ⟨front, l, hv, hp, h⟩ := h
  refine ⟨front, l, hv, fun x hx => (hp x hx).mono (hle x (by rw [hv]; simp [hx])), ?_⟩
  rcases h with h | h | ⟨a, k, hl, h | ⟨hm, h | ⟨h1, h2⟩ | h⟩⟩
  · exact .inl h
  · exact .inr (.inl h)
  · exact .inr (.inr ⟨a, k, hl, .inl h⟩)
  · exact .inr (.inr ⟨a, k, hl, .inr ⟨hm, .inl h⟩⟩)
  · exact .inr (.inr ⟨a, k, hl, .inr ⟨hm, .inr (.inl ⟨h1, by rw [hinc a h1 (by rw [hv, hl]; simp)]; exact h2⟩)⟩⟩)
  · exact .inr (.inr ⟨a, k, hl, .inr ⟨hm, .inr (.inr h)⟩⟩)

theorem Act.Step.of_scan_nil {env : CEnv V} {id : Nat} {act act' : Act V} {m m' : Mem V}
    (h : Act.Step env id act m act' m') (hpc : act.pc = .scan []) :
    act' = act.goto (.done (.error (.noMatch (callDesc (env.cx act) (env.info act.meth) act.args)))) := by
  cases h <;> simp_all

theorem Act.Step.of_done {env : CEnv V} {id : Nat} {act act' : Act V} {m m' : Mem V}
    (h : Act.Step env id act m act' m') {r : Except Panic V} (hpc : act.pc = .done r) : False := by
  cases h <;> simp_all

/-- The call's own step. -/
theorem Act.OnWay.step {env : CEnv V} {m0 m m' : Mem V} {i : Nat} {act act' : Act V} (h : act.OnWay env m0 m)
    (hlen : (env.vec act.meth).length ≠ 1) (hcoh : act.Coh)
    (hsame : ∀ x, (m.heap x).Same (m0.heap x))
    (hpos : ∀ x ∈ env.vec act.meth, 0 < (m0.heap x).exp.common.times.range.end_)
    (hpois : ∀ x ∈ env.vec act.meth, (m.heap x).exp.common.mpoison = false)
    (hcalm : ∀ x ∈ env.vec act.meth, ∃ r, (m0.heap x).exp.common.matcher.matches act.tid act.args = .ok r)
    (hle : ∀ x ∈ env.vec act.meth, (m.heap x).count ≤ (m'.heap x).count)
    (hfit : ∀ x ∈ env.vec act.meth, act.pc = .inc x → (m.heap x).count < usizeMax)
    (hs : Act.Step env i act m act' m') : act'.OnWay env m0 m' := by
  obtain ⟨front, l, hv, hp, h⟩ := h
  obtain ⟨i1, i2, i3⟩ := hs.ident
  have hp' : ∀ x ∈ front, m0.Past m' act.tid act.args x :=
    fun x hx => (hp x hx).mono (hle x (by rw [hv]; simp [hx]))
  unfold Act.OnWay
  rw [i1, i2, i3]
  rcases h with h | ⟨_, _, h⟩ | ⟨a, k, hl, h⟩
  · cases l with
    | nil =>
      have h1 := hs.of_scan_nil h
      simp only [Act.Coh, h] at hcoh
      exact ⟨front, [], hv, hp', .inr (.inl ⟨rfl, by rw [h1]; exact hcoh.1, by rw [h1]; rfl⟩)⟩
    | cons a k =>
      rcases hs.of_scan h with ⟨h1, _⟩ | ⟨_, h1⟩
      · rw [hpois a (by rw [hv]; simp)] at h1; cases h1
      · exact ⟨front, a :: k, hv, hp', .inr (.inr ⟨a, k, rfl, .inl (by rw [h1]; rfl)⟩)⟩
  · exact (hs.of_done h).elim
  · subst hl
    have hav : a ∈ env.vec act.meth := by rw [hv]; simp
    have hv2 : env.vec act.meth = (front ++ [a]) ++ k := by rw [hv]; simp
    have hd := isDone_count (hsame a) (hpos a hav)
    rcases h with h | ⟨hm, h | ⟨h1, h2⟩ | h⟩
    · rcases hs.of_matching h with ⟨p, h1, _⟩ | ⟨h1, h2⟩ | ⟨h1, h2⟩
      · rw [(hsame a).matcher] at h1
        obtain ⟨r, hr⟩ := hcalm a hav
        rw [hr] at h1; cases h1
      · rw [(hsame a).matcher] at h1
        refine ⟨front ++ [a], k, hv2, ?_, .inl (by rw [h2]; rfl)⟩
        intro x hx
        rcases List.mem_append.mp hx with hx | hx
        · exact hp' x hx
        · rw [List.mem_singleton] at hx; subst hx; exact .inl h1
      · rw [(hsame a).matcher] at h1
        exact ⟨front, a :: k, hv, hp', .inr (.inr ⟨a, k, rfl, .inr ⟨h1, .inl (by rw [h2]; rfl)⟩⟩)⟩
    · rcases hs.of_check h with ⟨p, h1⟩ | ⟨h1, h2⟩ | ⟨h1, h2⟩
      · rw [hd] at h1; cases h1
      · refine ⟨front ++ [a], k, hv2, ?_, .inl (by rw [h2]; rfl)⟩
        intro x hx
        rcases List.mem_append.mp hx with hx | hx
        · exact hp' x hx
        · rw [List.mem_singleton] at hx; subst hx
          rw [hd] at h1
          simp only [Except.ok.injEq, decide_eq_true_eq] at h1
          exact .inr ⟨hm, Nat.le_trans h1 (Nat.add_le_add_right (hle x hav) 1)⟩
      · have h3 : (m.heap a).exp.isDone = .ok false := h1.resolve_right hlen
        rw [hd] at h3
        simp only [Except.ok.injEq, decide_eq_false_iff_not] at h3
        have hm' : (m'.heap a).count = (m.heap a).count := by
          rcases hs.count hcoh a with ⟨h, _⟩ | ⟨_, h4, _⟩
          · exact h
          · rw [h] at h4; cases h4
        refine ⟨front, a :: k, hv, hp', .inr (.inr ⟨a, k, rfl, .inr ⟨hm, .inr (.inl ⟨by rw [h2], ?_⟩)⟩⟩)⟩
        rw [hm']; omega
    · have hok : (m.heap a).exp.common.times.call.1 = .ok (.ok ()) := by
        refine (times_call_ok (t := (m.heap a).exp.common.times) ?_).mpr ?_
        · exact hfit a hav h1
        · rw [(hsame a).range]; exact h2
      simp only [Act.Coh, h1] at hcoh
      rcases hs.of_inc h1 with ⟨_, ⟨p, h, _⟩ | ⟨e, h, _⟩ | ⟨_, h⟩⟩
      · rw [hok] at h; cases h
      · rw [hok] at h; cases h
      · exact ⟨front, a :: k, hv, hp', .inr (.inr ⟨a, k, rfl, .inr ⟨hm, .inr (.inr ⟨by rw [h]; exact hcoh.1, by rw [h]⟩)⟩⟩)⟩
    · have hk := hs.keep hcoh h.2
      exact ⟨front, a :: k, hv, hp', .inr (.inr ⟨a, k, rfl, .inr ⟨hm, .inr (.inr ⟨by rw [hk.2]; exact h.1, hk.1⟩)⟩⟩)⟩

/-- Counts only grow, and a call about to be counted is not one of those counted. -/
theorem CInv.grows {env : CEnv V} {m0 : Mem V} {s : CState V} (hi : CInv m0 s) {i : Nat} {act act' : Act V}
    {m' : Mem V} (hact : s.acts[i]? = some act) (hs : Act.Step env i act s.mem act' m') (a : Nat)
    (hfit : (m0.heap a).count + s.acts.length ≤ usizeMax) :
    (s.mem.heap a).count ≤ (m'.heap a).count ∧ (act.pc = .inc a → (s.mem.heap a).count < usizeMax) := by
  have hle := List.countP_le_length (p := Act.counted a) (l := s.acts)
  have h4 := hi.count a
  rw [Nat.mod_eq_of_lt (by omega)] at h4
  have hlt : act.pc = .inc a → (s.mem.heap a).count < usizeMax := by
    intro h6
    have h6' : act.counted a = false := by simp [Act.counted, h6]
    have := countP_set (Act.counted a) s.acts i act
      ({ act with via := some a, pc := .done (.error .poisoned) } : Act V) hact
    have h5 := List.countP_le_length (p := Act.counted a) (l := s.acts.set i
        ({ act with via := some a, pc := .done (.error .poisoned) } : Act V))
    have h7 : ({ act with via := some a, pc := .done (.error .poisoned) } :
      Act V).counted a = true := by simp [Act.counted]
    rw [h6', h7] at this
    simp only [Bool.false_eq_true, if_false, if_true] at this
    simp only [List.length_set] at h5
    omega
  refine ⟨?_, hlt⟩
  rcases hs.count (hi.coh i act hact) a with ⟨e, _⟩ | ⟨e, hpc, _⟩
  · omega
  · have := hlt hpc
    rw [e]
    unfold atomicInc
    rw [if_neg (by omega)]
    omega

theorem onWay_run {env : CEnv V} {m0 : Mem V} (hq : m0.Quiet) (mt : Nat) (hlen : (env.vec mt).length ≠ 1)
    (hpos : ∀ x ∈ env.vec mt, 0 < (m0.heap x).exp.common.times.range.end_)
    (hpois : ∀ x ∈ env.vec mt, (m0.heap x).exp.common.mpoison = false)
    (sch : List (Sched V)) (hnr : NeverRaces env m0 mt sch)
    (hcalm : ∀ x ∈ env.vec mt, ∀ act ∈ (after env m0 sch).acts,
      ∃ r, (m0.heap x).exp.common.matcher.matches act.tid act.args = .ok r)
    (hfit : ∀ x ∈ env.vec mt, (m0.heap x).count + (after env m0 sch).acts.length ≤ usizeMax) :
    (∀ x ∈ env.vec mt, ((after env m0 sch).mem.heap x).exp.common.mpoison = false) ∧
    ∀ act ∈ (after env m0 sch).acts, act.meth = mt → act.OnWay env m0 (after env m0 sch).mem := by
  induction sch using snoc_induct with
  | nil => exact ⟨hpois, by intro act h; cases h⟩
  | snoc sch x ih =>
    have hnr' : NeverRaces env m0 mt sch := fun pre post h => hnr pre (post ++ [x]) (by rw [h]; simp)
    have hnow := hnr sch [x] rfl
    have hi : CInv m0 (after env m0 sch) := cinv_run env hq sch
    rw [after_snoc] at hcalm hfit ⊢
    have ih := ih hnr'
    generalize after env m0 sch = s at *
    rcases CState.step_cases env s x with h | ⟨meth, tid, args, h⟩ | ⟨i, act, act', m', hact, hs, h⟩
    · rw [h] at hcalm hfit ⊢
      exact ih hcalm hfit
    · rw [h] at hcalm hfit ⊢
      simp only [List.length_append, List.length_cons, List.length_nil] at hfit
      obtain ⟨h1, h2⟩ := ih (fun x hx act hact => hcalm x hx act (by simp [hact]))
        (fun x hx => by have := hfit x hx; omega)
      refine ⟨h1, ?_⟩
      intro y hy hm
      rcases List.mem_append.mp hy with hy | hy
      · exact h2 y hy hm
      · rw [List.mem_singleton] at hy
        subst hy
        exact ⟨[], env.vec meth, rfl, by simp, .inl rfl⟩
    · rw [h] at hcalm hfit ⊢
      simp only [List.length_set] at hfit
      have hold : ∀ x ∈ env.vec mt, ∀ act ∈ s.acts,
          ∃ r, (m0.heap x).exp.common.matcher.matches act.tid act.args = .ok r := by
        intro x hx y hy
        obtain ⟨c, hc⟩ := List.getElem?_of_mem hy
        by_cases hci : c = i
        · subst hci
          rw [hact] at hc; cases hc
          have := hcalm x hx act' (List.mem_of_getElem? (i := c) (by simp [acts_set hact]))
          rwa [hs.ident.2.1, hs.ident.2.2] at this
        · exact hcalm x hx y (List.mem_of_getElem? (i := c) (by simp [acts_set hact, hci, hc]))
      obtain ⟨h1, h2⟩ := ih hold hfit
      refine ⟨?_, ?_⟩
      · intro x hx
        rcases hs.mpoison x with h | ⟨rest, p, hpc, hp⟩
        · simp only; rw [h]; exact h1 x hx
        · obtain ⟨r, hr⟩ := hold x hx act (List.mem_of_getElem? hact)
          rw [(hi.same x).matcher, hr] at hp
          cases hp
      · intro y hy hm
        have hle : ∀ x ∈ env.vec mt, (s.mem.heap x).count ≤ (m'.heap x).count :=
          fun x hx => (hi.grows hact hs x (hfit x hx)).1
        obtain ⟨c, hc⟩ := List.getElem?_of_mem hy
        simp only [acts_set hact] at hc
        split at hc
        next hci =>
          cases hc
          have hm' : act.meth = mt := by rw [← hm, hs.ident.1]
          have hmem := List.mem_of_getElem? hact
          refine (h2 act hmem hm').step (by rw [hm']; exact hlen) (hi.coh i act hact) hi.same
            (by rw [hm']; exact hpos) (by rw [hm']; exact h1) (by rw [hm']; exact fun x hx => hold x hx act hmem)
            (by rw [hm']; exact hle) ?_ hs
          rw [hm']
          exact fun x hx => (hi.grows hact hs x (hfit x hx)).2
        next hci =>
          refine (h2 y (List.mem_of_getElem? hc) hm).mono (by rw [hm]; exact hle) ?_
          intro a hpc ha
          rw [hm] at ha
          rcases hs.count (hi.coh i act hact) a with ⟨e, _⟩ | ⟨_, hpc', _⟩
          · exact e
          · exact absurd (hnow c i y act a hc hact ha hpc hpc') hci

/-- **C37** for every call, however it overlaps with others, as long as no two calls find room in the same expectation
before either is counted (without that it is false, `C37_refuted`).  A call of a method with several expectations that
is over was either accepted by the first expectation that matches and was not exhausted, every one ahead of it being
exhausted or not matching; or every expectation is exhausted or does not match, and the panic says that there is none.
In particular a surplus call is never refused as one too many.  (No matcher panics.) -/
theorem C37_norace_partial (env : CEnv V) (m0 : Mem V) (hq : m0.Quiet) (mt : Nat) (hlen : (env.vec mt).length ≠ 1)
    (hpos : ∀ x ∈ env.vec mt, 0 < (m0.heap x).exp.common.times.range.end_)
    (hpois : ∀ x ∈ env.vec mt, (m0.heap x).exp.common.mpoison = false)
    (sch : List (Sched V)) (hnr : NeverRaces env m0 mt sch)
    (hcalm : ∀ x ∈ env.vec mt, ∀ act ∈ (after env m0 sch).acts,
      ∃ r, (m0.heap x).exp.common.matcher.matches act.tid act.args = .ok r)
    (hfit : ∀ x ∈ env.vec mt, (m0.heap x).count + (after env m0 sch).acts.length ≤ usizeMax)
    (act : Act V) (hact : act ∈ (after env m0 sch).acts) (hm : act.meth = mt) (hfin : act.finished = true) :
    (∃ front a back, env.vec mt = front ++ a :: back ∧ act.via = some a ∧ act.passed = true ∧
      (m0.heap a).exp.common.matcher.matches act.tid act.args = .ok true ∧
      ∀ x ∈ front, m0.Past (after env m0 sch).mem act.tid act.args x) ∨
    (act.via = none ∧
      act.pc = .done (.error (.noMatch (callDesc (env.cx act) (env.info mt) act.args))) ∧
      ∀ x ∈ env.vec mt, m0.Past (after env m0 sch).mem act.tid act.args x) := by
  obtain ⟨front, l, hv, hp, h⟩ := (onWay_run hq mt hlen hpos hpois sch hnr hcalm hfit).2 act hact hm
  rw [hm] at hv h
  rcases h with h | ⟨hl, hvia, h⟩ | ⟨a, k, hl, h | ⟨hmt, h | ⟨h, _⟩ | h⟩⟩
  · simp [Act.finished, h] at hfin
  · subst hl
    rw [List.append_nil] at hv
    exact .inr ⟨hvia, h, by rw [hv]; exact hp⟩
  · simp [Act.finished, h] at hfin
  · simp [Act.finished, h] at hfin
  · simp [Act.finished, h] at hfin
  · subst hl
    exact .inl ⟨front, a, k, hv, h.1, h.2, hmt, hp⟩

/-- Calls that are not in progress at the same time for the same expectation do not compete. -/
theorem CallsApart.neverRaces {env : CEnv V} {m0 : Mem V} (hq : m0.Quiet) {mt : Nat} {sch : List (Sched V)}
    (h : CallsApart env m0 mt sch) : NeverRaces env m0 mt sch := by
  intro pre post hsp c d x y a hc hd ha hx hy
  have hi : CInv m0 (after env m0 pre) := cinv_run env hq pre
  have h1 := hi.coh c x hc
  have h2 := hi.coh d y hd
  simp only [Act.Coh, hx] at h1
  simp only [Act.Coh, hy] at h2
  exact h pre post hsp c d x y a hc hd ha h1.1 h2.1 (by simp [Act.finished, hx]) (by simp [Act.finished, hy])

/-- `C37_norace_partial` for calls of which no two handed to the same expectation are in progress at once. -/
theorem C37_apart_partial (env : CEnv V) (m0 : Mem V) (hq : m0.Quiet) (mt : Nat) (hlen : (env.vec mt).length ≠ 1)
    (hpos : ∀ x ∈ env.vec mt, 0 < (m0.heap x).exp.common.times.range.end_)
    (hpois : ∀ x ∈ env.vec mt, (m0.heap x).exp.common.mpoison = false)
    (sch : List (Sched V)) (hap : CallsApart env m0 mt sch)
    (hcalm : ∀ x ∈ env.vec mt, ∀ act ∈ (after env m0 sch).acts,
      ∃ r, (m0.heap x).exp.common.matcher.matches act.tid act.args = .ok r)
    (hfit : ∀ x ∈ env.vec mt, (m0.heap x).count + (after env m0 sch).acts.length ≤ usizeMax)
    (act : Act V) (hact : act ∈ (after env m0 sch).acts) (hm : act.meth = mt) (hfin : act.finished = true) :
    (∃ front a back, env.vec mt = front ++ a :: back ∧ act.via = some a ∧ act.passed = true ∧
      (m0.heap a).exp.common.matcher.matches act.tid act.args = .ok true ∧
      ∀ x ∈ front, m0.Past (after env m0 sch).mem act.tid act.args x) ∨
    (act.via = none ∧
      act.pc = .done (.error (.noMatch (callDesc (env.cx act) (env.info mt) act.args))) ∧
      ∀ x ∈ env.vec mt, m0.Past (after env m0 sch).mem act.tid act.args x) :=
  C37_norace_partial env m0 hq mt hlen hpos hpois sch (hap.neverRaces hq) hcalm hfit act hact hm hfin

/-- Three calls of `f0` on three threads.  The second starts while the first is in progress, and looks at the first
expectation's count after the first call was counted; the third does so too. -/
def spillTurns : List (Sched Nat) :=
  [.start 0 1 [], .start 0 2 [], .start 0 3 []] ++ steps ([0, 1, 0, 0, 1, 0, 1, 1, 2, 2, 2, 2, 2, 2] ++
    (List.replicate 15 [1, 0, 2]).flatten)

/-- Can the schedule be cut anywhere without two calls about to be counted at the same expectation? -/
theorem spill_norace (sch : List (Sched Nat)) (h : ∀ a < 2, ∀ n ≤ sch.length,
    ((after (demoEnv spill) (demoMem spill) (sch.take n)).acts.countP fun x =>
      match x.pc with | .inc b => b == a | _ => false) ≤ 1) :
    NeverRaces (demoEnv spill) (demoMem spill) 0 sch := by
  intro pre post hsp c d x y a hc hd ha hx hy
  have ha2 : a < 2 := by
    have : (demoEnv spill).vec 0 = [0, 1] := rfl
    rw [this] at ha
    rcases List.mem_cons.mp ha with ha | ha
    · omega
    · rw [List.mem_singleton] at ha; omega
  by_cases hcd : c = d
  · exact hcd
  · have h1 := h a ha2 pre.length (by rw [hsp]; simp)
    have ht : sch.take pre.length = pre := by rw [hsp]; simp
    rw [ht] at h1
    have h2 := countP_two (p := fun x : Act Nat => match x.pc with | .inc b => b == a | _ => false) hcd hc hd
      (by simp [hx]) (by simp [hy])
    omega

set_option maxRecDepth 16000 in
example : NeverRaces (demoEnv spill) (demoMem spill) 0 spillTurns ∧
    (after (demoEnv spill) (demoMem spill) spillTurns).outcomes = [some (.ok 10), some (.ok 20), some (.ok 20)] ∧
    ((after (demoEnv spill) (demoMem spill) spillTurns).acts.map Act.via) = [some 0, some 1, some 1] := by
  refine ⟨spill_norace _ ?_, by rfl, by rfl⟩
  decide +kernel

set_option maxRecDepth 16000 in
/-- All hypotheses of `C37_norace_partial` hold there. -/
example (act : Act Nat) (hact : act ∈ (after (demoEnv spill) (demoMem spill) spillTurns).acts) (hm : act.meth = 0)
    (hfin : act.finished = true) :
    act.passed = true ∨ act.via = none :=
  Or.imp (fun ⟨_, _, _, _, _, h, _⟩ => h) And.left <| C37_norace_partial (demoEnv spill) (demoMem spill) (demoMem_quiet _ (by decide)) 0 (by decide) (by decide)
    (by decide) spillTurns (spill_norace _ (by decide +kernel)) (fun x _ act _ => by
      match x with
      | 0 => exact ⟨true, rfl⟩
      | 1 => exact ⟨true, rfl⟩
      | _ + 2 => rename_i hx; exact absurd hx (by simp [show (demoEnv spill).vec 0 = [0, 1] from rfl]))
    (by
      have h : (after (demoEnv spill) (demoMem spill) spillTurns).acts.length = 3 := by decide +kernel
      rw [h]; decide)
    act hact hm hfin

set_option maxRecDepth 16000 in
/-- The race of `C37_refuted` is one. -/
example : ¬ NeverRaces (demoEnv spill) (demoMem spill) 0 spillRace := by
  intro h
  have := h (spillRace.take 8) (spillRace.drop 8) (List.take_append_drop 8 spillRace).symm 0 1 _ _ 0 rfl rfl
    (by decide) rfl rfl
  cases this

end Mockall
