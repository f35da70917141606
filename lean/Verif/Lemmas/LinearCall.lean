import Verif.Lemmas.LinearStep

/-! # A call that runs alone does what the sequential call does -/

set_option linter.unusedSimpArgs false

namespace Mockall

variable {V : Type}

theorem Mem.put_put (m : Mem V) (a : Nat) (c d : Cell V) : (m.put a c).put a d = m.put a d := by
  simp only [Mem.put, Mem.mk.injEq, and_true]
  funext b
  split <;> rfl

theorem Mem.put_self (m : Mem V) (a : Nat) : m.put a (m.heap a) = m := by
  cases m
  simp only [Mem.put, Mem.mk.injEq, and_true]
  funext b
  split <;> simp_all

/-- The value of `ret_call` does not depend on the ghosts, nor on the sequences. -/
theorem ret_call_world (cx : Cx V) (info : FnInfo V) (args : List V) (e : Expectation V)
    (w w' : World V) :
    (e.ret_call cx info args w).1 = (e.ret_call cx info args w').1 ∧
    (e.ret_call cx info args w).2.1 = (e.ret_call cx info args w').2.1 ∧
    (e.ret_call cx info args w).2.2.seqs = w.seqs := by
  simp only [Expectation.ret_call]
  repeat' split
  all_goals exact ⟨rfl, rfl, rfl⟩

/-- What is left of a call once `find` has returned: it ends with result `r`, the expectation `a` is
then `e` and unlocked, the sequences are `q`, and nothing else has changed. -/
def Ends (ce : CEnv V) (id : Nat) (act : Act V) (m : Mem V) (a : Nat) (r : Except Panic V)
    (e : Expectation V) (q : Seqs) : Prop :=
  ∃ m', Finishes ce id act m r m' ∧ m'.heap a = ⟨e, none, none⟩ ∧
    (∀ b, b ≠ a → m'.heap b = m.heap b) ∧ m'.seqs = q

theorem Ends.step {ce : CEnv V} {id : Nat} {act act1 : Act V} {m m1 : Mem V} {a : Nat}
    {r : Except Panic V} {e : Expectation V} {q : Seqs}
    (hs : act.step ce id m = some (act1, m1)) (h : Ends ce id act1 m1 a r e q)
    (h2 : ∀ b, b ≠ a → m1.heap b = m.heap b) : Ends ce id act m a r e q := by
  obtain ⟨m', g1, g2, g3, g4⟩ := h
  exact ⟨m', .step hs g1, g2, fun b hb => (g3 b hb).trans (h2 b hb), g4⟩

theorem Ends.last {ce : CEnv V} {id : Nat} {act act1 : Act V} {m m1 : Mem V} {a : Nat}
    {r : Except Panic V} {e : Expectation V} {q : Seqs}
    (hs : act.step ce id m = some (act1, m1)) (hd : act1.pc = .done r)
    (h1 : m1.heap a = ⟨e, none, none⟩)
    (h2 : ∀ b, b ≠ a → m1.heap b = m.heap b) (h3 : m1.seqs = q) : Ends ce id act m a r e q :=
  ⟨m1, .step hs (.done hd), h1, h2, h3⟩

theorem ends_ret {ce : CEnv V} {id : Nat} {act : Act V} {m : Mem V} {a : Nat} {e : Expectation V}
    (hpc : act.pc = .ret a) (hc : m.heap a = ⟨e, none, none⟩) (w : World V) :
    Ends ce id act m a (e.ret_call (ce.cx act) (ce.info act.meth) act.args w).1
      (e.ret_call (ce.cx act) (ce.info act.meth) act.args w).2.1 m.seqs := by
  have hn : (ce.cx act).nightly = ce.nightly := rfl
  have ht : (ce.cx act).tid = act.tid := rfl
  cases hret : e.ret with
  | ref r =>
    cases hv : r.call ce.nightly with
    | ok v =>
      simp only [Expectation.ret_call, hret, hn, hv]
      exact .last (by simp only [Act.step, hpc, hc, hret, hv]; rfl) rfl hc (fun _ _ => rfl) rfl
    | error x =>
      simp only [Expectation.ret_call, hret, hn, hv]
      refine .step (act1 := { act with pc := .refFail a x }) (m1 := m)
        (by simp only [Act.step, hpc, hc, hret, hv]) ?_ (fun _ _ => rfl)
      exact .last (by simp only [Act.step, hc]; rfl) rfl hc (fun _ _ => rfl) rfl
  | refMut r =>
    obtain ⟨h1, h2, _⟩ := ret_call_world (ce.cx act) (ce.info act.meth) act.args e w
      ⟨m.seqs, 0, [], [], m.runs⟩
    rw [h1, h2]
    refine .last (by simp only [Act.step, hpc, hc, hret]; rfl) rfl ?_ ?_ ?_
    · simp only [Mem.put_heap, if_true]
    · intro b hb; simp [hb]
    · rfl
  | static r poison =>
    cases poison with
    | true =>
      simp only [Expectation.ret_call, hret, if_true]
      exact .last (by simp only [Act.step, hpc, hc, hret, if_true]; rfl) rfl hc (fun _ _ => rfl) rfl
    | false =>
      simp only [Expectation.ret_call, hret, hn, ht, Bool.false_eq_true, if_false]
      refine .step (act1 := { act with pc := .run a }) (m1 := m.put a ⟨e, none, some id⟩)
        (by simp only [Act.step, hpc, hc, hret, Bool.false_eq_true, if_false]) ?_
        (fun b hb => by simp [hb])
      have hc1 : (m.put a ⟨e, none, some id⟩).heap a = ⟨e, none, some id⟩ := by simp
      rcases ho : (r.callMut ce.nightly (ce.info act.meth).default act.tid act.args).out with p | x | v
      · simp only
        refine .last (by simp only [Act.step, hc1, hret, ho]; rfl) rfl ?_ ?_ ?_
        · simp
        · intro b hb; simp [hb]
        · rfl
      · simp only
        let o := r.callMut ce.nightly (ce.info act.meth).default act.tid act.args
        refine .step (act1 := { act with pc := .runFail a x })
          (m1 := { (m.put a ⟨e, none, some id⟩).put a ⟨{ e with ret := .static o.next false }, none, some id⟩ with
            runs := m.runs ++ runEntry (ce.cx act) act.args o.ran })
          (by simp only [Act.step, hc1, hret, ho]; rfl) ?_ (fun b hb => by simp [hb])
        refine .last (by simp only [Act.step, Mem.put_heap, if_true]; rfl) rfl ?_ ?_ ?_
        · simp [o]
        · intro b hb; simp [hb]
        · rfl
      · simp only
        refine .last (by simp only [Act.step, hc1, hret, ho]; rfl) rfl ?_ ?_ ?_
        · simp
        · intro b hb; simp [hb]
        · rfl

theorem step_verify {ce : CEnv V} {id : Nat} {act : Act V} {m : Mem V} {a : Nat} {e : Expectation V}
    (hpc : act.pc = .verify a) (hc : m.heap a = ⟨e, none, none⟩) :
    act.step ce id m =
      match e.common.verifySequence m.seqs (callDesc (ce.cx act) (ce.info act.meth) act.args) with
      | .error p => some ({ act with pc := .done (.error p) }, m)
      | .ok () => some ({ act with pc := .loadLow a }, m) := by
  simp only [Act.step, hpc, hc]
  rfl

theorem step_satisfy {ce : CEnv V} {id : Nat} {act : Act V} {m : Mem V} {a : Nat} {e : Expectation V}
    (hpc : act.pc = .satisfy a) (hc : m.heap a = ⟨e, none, none⟩) :
    act.step ce id m = some
      ({ act with pc := match (e.common.satisfySequence m.seqs).1 with
          | .error p => .done (.error p)
          | .ok () => .ret a }, { m with seqs := (e.common.satisfySequence m.seqs).2 }) := by
  simp only [Act.step, hpc, hc]
  rfl

/-- The two loads of `is_satisfied`. -/
theorem ends_loads {ce : CEnv V} {id : Nat} {act : Act V} {m : Mem V} {a : Nat} {e e' : Expectation V}
    {r : Except Panic V} {q : Seqs}
    (hpc : act.pc = .loadLow a) (hc : m.heap a = ⟨e, none, none⟩)
    (h : Ends ce id { act with pc := if e.common.times.isSatisfied ≠ .tooFew then .satisfy a else .ret a } m a r e' q) :
    Ends ce id act m a r e' q := by
  refine .step (act1 := { act with pc := .loadHigh a (decide (e.common.times.count ≥ e.common.times.range.start)) })
    (m1 := m) (by simp only [Act.step, hpc, hc]) ?_ (fun _ _ => rfl)
  refine .step (act1 := { act with pc := if e.common.times.isSatisfied ≠ .tooFew then .satisfy a else .ret a })
    (m1 := m) ?_ h (fun _ _ => rfl)
  simp only [Act.step, hc, Times.isSatisfied]
  rfl

theorem ends_call {ce : CEnv V} {id : Nat} {act : Act V} {m : Mem V} {a : Nat} {e : Expectation V}
    (hpc : act.pc = .inc a) (hc : m.heap a = ⟨e, none, none⟩) (w : World V) (hw : w.seqs = m.seqs) :
    Ends ce id act m a (e.call (ce.cx act) (ce.info act.meth) act.args w).1
      (e.call (ce.cx act) (ce.info act.meth) act.args w).2.1
      (e.call (ce.cx act) (ce.info act.meth) act.args w).2.2.seqs := by
  rcases ht : e.common.times.call with ⟨x, t⟩
  obtain ⟨c1, hc1⟩ : ∃ c1, c1 = { e.common with times := t } := ⟨_, rfl⟩
  obtain ⟨e1, he1⟩ : ∃ e1, e1 = { e with common := c1 } := ⟨_, rfl⟩
  have hce : c1 = e1.common := by rw [he1]
  have hm1 : (m.put a ⟨e1, none, none⟩).heap a = ⟨e1, none, none⟩ := by simp
  have hoth : ∀ b, b ≠ a → (m.put a ⟨e1, none, none⟩).heap b = m.heap b := fun b hb => by simp [hb]
  rcases x with p | x | u
  · simp only [Expectation.call, Common.call, ht, ← hc1, ← he1]
    refine .last (m1 := m.put a ⟨e1, none, none⟩) (by simp only [Act.step, hpc, hc, ht, ← hc1, ← he1]; rfl) rfl hm1 hoth ?_
    exact hw.symm
  · simp only [Expectation.call, Common.call, ht, ← hc1, ← he1]
    refine .step (act1 := { act with pc := .callFail a x }) (m1 := m.put a ⟨e1, none, none⟩)
      (by simp only [Act.step, hpc, hc, ht, ← hc1, ← he1]) ?_ hoth
    refine .last (by simp only [Act.step, hm1]; rfl) ?_ hm1 (fun _ _ => rfl) hw.symm
    simp only [he1, hc1]
  · obtain ⟨act1, hact⟩ : ∃ act1, act1 = { act with passed := true, pc := .verify a } := ⟨_, rfl⟩
    refine .step (act1 := act1) (m1 := m.put a ⟨e1, none, none⟩)
      (by simp only [Act.step, hpc, hc, ht, ← hc1, ← he1, ← hact]) ?_ hoth
    have hcx : ce.cx act1 = ce.cx act := by rw [hact]; rfl
    have hme : act1.meth = act.meth := by rw [hact]
    have hargs : act1.args = act.args := by rw [hact]
    have hpc1 : act1.pc = .verify a := by rw [hact]
    rw [← hcx, ← hme, ← hargs]
    have hsv := step_verify (ce := ce) (id := id) hpc1 hm1
    simp only [Mem.put_seqs] at hsv
    rcases hv : e1.common.verifySequence m.seqs (callDesc (ce.cx act1) (ce.info act1.meth) act1.args) with p | u
    · simp only [hv] at hsv
      simp only [Expectation.call, Common.call, ht, hw, ← hc1]
      rw [← hce] at hv
      simp only [hv, ← he1]
      exact .last hsv rfl hm1 (fun _ _ => rfl) rfl
    · simp only [hv] at hsv
      refine .step hsv ?_ (fun _ _ => rfl)
      refine ends_loads rfl hm1 ?_
      rw [← hce] at hv ⊢
      rw [show c1.times = t by rw [hc1]]
      by_cases hsat : t.isSatisfied ≠ .tooFew
      · rcases hq : c1.satisfySequence m.seqs with ⟨x, q⟩
        have hq' := hq
        rw [hce] at hq'
        rw [if_pos hsat]
        have hss := step_satisfy (ce := ce) (id := id) (act := { act1 with pc := .satisfy a }) rfl hm1
        simp only [Mem.put_seqs, hq'] at hss
        rcases x with p | x
        · simp only [Expectation.call, Common.call, ht, hw, ← hc1, hv, if_pos hsat, hq, ← he1]
          exact .last hss rfl hm1 (fun _ _ => rfl) rfl
        · simp only [Expectation.call, Common.call, ht, hw, ← hc1, hv, if_pos hsat, hq, ← he1]
          rw [(ret_call_world _ _ _ _ _ ⟨q, 0, [], [], []⟩).2.2]
          exact .step hss (ends_ret (ce := ce) (id := id) (act := { act1 with pc := .ret a })
            (m := { m.put a ⟨e1, none, none⟩ with seqs := q }) rfl hm1 _) (fun _ _ => rfl)
      · rw [if_neg hsat]
        simp only [Expectation.call, Common.call, ht, hw, ← hc1, hv, if_neg hsat, ← he1]
        rw [(ret_call_world _ _ _ _ _ ⟨m.seqs, 0, [], [], []⟩).2.2]
        exact ends_ret (act := { act1 with pc := .ret a }) rfl hm1 _

/-- A call that runs alone does what the sequential call does. -/
theorem finishes_scan {ce : CEnv V} {id : Nat} {m : Mem V} (w : World V) (hw : w.seqs = m.seqs)
    (rest : List Nat) (act : Act V) (hpc : act.pc = .scan rest) (hnd : rest.Nodup)
    (hfree : ∀ a ∈ rest, (m.heap a).mheld = none ∧ (m.heap a).rheld = none) :
    ∃ m', Finishes ce id act m (expectMatch (ce.cx act) (ce.info act.meth) act.args
        (callScan (ce.cx act) (ce.info act.meth) act.args (ce.vec act.meth).length
          (rest.map fun a => (m.heap a).exp) w).1) m' ∧
      (rest.map fun a => (m'.heap a).exp) = (callScan (ce.cx act) (ce.info act.meth) act.args
        (ce.vec act.meth).length (rest.map fun a => (m.heap a).exp) w).2.1 ∧
      m'.seqs = (callScan (ce.cx act) (ce.info act.meth) act.args
        (ce.vec act.meth).length (rest.map fun a => (m.heap a).exp) w).2.2.seqs ∧
      (∀ a ∈ rest, (m'.heap a).mheld = none ∧ (m'.heap a).rheld = none) ∧
      (∀ b, b ∉ rest → m'.heap b = m.heap b) := by
  induction rest generalizing act with
  | nil =>
    refine ⟨m, .step (by simp only [Act.step, hpc]; rfl) (.done ?_), ?_, ?_, ?_, ?_⟩
    · rfl
    · simp [callScan]
    · simp [callScan, hw]
    · simp
    · simp
  | cons a rest ih =>
    obtain ⟨hna, hnd⟩ := List.nodup_cons.mp hnd
    obtain ⟨e, he⟩ : ∃ e, e = (m.heap a).exp := ⟨_, rfl⟩
    have hc : m.heap a = ⟨e, none, none⟩ := by
      obtain ⟨h1, h2⟩ := hfree a (by simp)
      rcases hx : m.heap a with ⟨x, y, z⟩
      rw [hx] at h1 h2 he
      simp only at h1 h2 he
      rw [he, h1, h2]
    simp only [List.map_cons, ← he]
    have htid : (ce.cx act).tid = act.tid := rfl
    cases hp : e.common.mpoison with
    | true =>
      refine ⟨m, .step (act1 := { act with pc := .done (.error .poisoned) }) (m1 := m)
        (by simp only [Act.step, hpc, hc, hp, if_true]) (.done ?_), ?_, ?_, hfree, fun _ _ => rfl⟩
      · simp only [callScan, Expectation.matches, Common.matches, hp, if_true, expectMatch]
      · simp only [callScan, Expectation.matches, Common.matches, hp, if_true, ← he]
      · simp only [callScan, Expectation.matches, Common.matches, hp, if_true, hw]
    | false =>
      have hs1 : act.step ce id m =
          some ({ act with pc := .matching a rest }, m.put a ⟨e, some id, none⟩) := by
        simp only [Act.step, hpc, hc, hp, Bool.false_eq_true, if_false]
      have hput : (m.put a ⟨e, some id, none⟩).heap a = ⟨e, some id, none⟩ := by simp
      rcases hm : e.common.matcher.matches act.tid act.args with p | b
      · obtain ⟨e1, he1⟩ : ∃ e1 : Expectation V, e1 = { e with common := { e.common with mpoison := true } } := ⟨_, rfl⟩
        refine ⟨(m.put a ⟨e, some id, none⟩).put a ⟨e1, none, none⟩, .step hs1 (.step
          (act1 := { act with pc := .done (.error p) }) ?_ (.done ?_)), ?_, ?_, ?_, ?_⟩
        · simp only [Act.step, hput, hm, he1]
        · simp only [callScan, Expectation.matches, Common.matches, hp, Bool.false_eq_true, if_false, htid, hm, expectMatch]
        · simp only [callScan, Expectation.matches, Common.matches, hp, Bool.false_eq_true, if_false, htid, hm,
            ← he1, Mem.put_put, Mem.put_heap, if_true, List.cons.injEq, true_and]
          refine List.map_congr_left (fun b hb => ?_)
          have : b ≠ a := fun hx => hna (hx ▸ hb)
          simp [this]
        · simp only [callScan, Expectation.matches, Common.matches, hp, Bool.false_eq_true, if_false, htid, hm,
            Mem.put_seqs, hw]
        · intro b hb
          simp only [Mem.put_heap]
          split
          · exact ⟨rfl, rfl⟩
          · exact hfree b hb
        · intro b hb
          simp only [List.mem_cons, not_or] at hb
          simp [hb.1]
      · have hs2 : ∀ pc', (if b then Pc.check a rest else Pc.scan rest) = pc' →
            ({ act with pc := .matching a rest } : Act V).step ce id (m.put a ⟨e, some id, none⟩) =
            some ({ act with pc := pc' }, m) := by
          rintro pc' rfl
          have hback : (m.put a ⟨e, some id, none⟩).put a
              ⟨{ e with common := { e.common with mpoison := e.common.mpoison } }, none, none⟩ = m := by
            rw [Mem.put_put]
            show m.put a ⟨e, none, none⟩ = m
            rw [← hc, Mem.put_self]
          simp only [Act.step, hput, hm]
          cases b <;> simp only [if_true, Bool.false_eq_true, if_false] <;> rw [hback]
        have hmat : e.matches (ce.cx act).tid act.args = (.ok b, e) := by
          simp only [Expectation.matches, Common.matches, hp, Bool.false_eq_true, if_false, htid, hm]
        have skip : ∀ act1 : Act V, act1 = { act with pc := .scan rest } →
            (callScan (ce.cx act) (ce.info act.meth) act.args (ce.vec act.meth).length
              (e :: rest.map fun a => (m.heap a).exp) w =
              ((callScan (ce.cx act) (ce.info act.meth) act.args (ce.vec act.meth).length
                (rest.map fun a => (m.heap a).exp) w).1,
               e :: (callScan (ce.cx act) (ce.info act.meth) act.args (ce.vec act.meth).length
                (rest.map fun a => (m.heap a).exp) w).2.1,
               (callScan (ce.cx act) (ce.info act.meth) act.args (ce.vec act.meth).length
                (rest.map fun a => (m.heap a).exp) w).2.2)) →
            (∀ r m', Finishes ce id act1 m r m' → Finishes ce id act m r m') →
            ∃ m', Finishes ce id act m (expectMatch (ce.cx act) (ce.info act.meth) act.args
                (callScan (ce.cx act) (ce.info act.meth) act.args (ce.vec act.meth).length
                  (e :: rest.map fun a => (m.heap a).exp) w).1) m' ∧
              ((m'.heap a).exp :: rest.map fun a => (m'.heap a).exp) = (callScan (ce.cx act) (ce.info act.meth) act.args
                (ce.vec act.meth).length (e :: rest.map fun a => (m.heap a).exp) w).2.1 ∧
              m'.seqs = (callScan (ce.cx act) (ce.info act.meth) act.args
                (ce.vec act.meth).length (e :: rest.map fun a => (m.heap a).exp) w).2.2.seqs ∧
              (∀ a' ∈ a :: rest, (m'.heap a').mheld = none ∧ (m'.heap a').rheld = none) ∧
              (∀ b, b ∉ a :: rest → m'.heap b = m.heap b) := by
          rintro act1 rfl hcs hfin
          obtain ⟨m', i1, i2, i3, i4, i5⟩ := ih { act with pc := .scan rest } rfl hnd
            (fun a ha => hfree a (List.mem_cons_of_mem _ ha))
          rw [hcs]
          refine ⟨m', hfin _ _ i1, ?_, i3, ?_, ?_⟩
          · rw [i5 a hna, ← he]
            exact congrArg (e :: ·) i2
          · intro a' ha'
            rcases List.mem_cons.mp ha' with rfl | h
            · rw [i5 _ hna]; exact hfree _ (by simp)
            · exact i4 a' h
          · intro b hb
            simp only [List.mem_cons, not_or] at hb
            exact i5 b hb.2
        cases b with
        | false =>
          refine skip _ rfl ?_ (fun r m' h => .step hs1 (.step (hs2 _ rfl) h))
          simp only [callScan, hmat]
        | true =>
          have hs3 := hs2 _ rfl
          simp only [if_true] at hs3
          rcases hd : e.isDone with p | d
          · refine ⟨m, .step hs1 (.step hs3 (.step (act1 := { act with pc := .done (.error p) }) (m1 := m)
              (by simp only [Act.step, hc, hd]) (.done ?_))), ?_, ?_, hfree, fun _ _ => rfl⟩
            · simp only [callScan, hmat, hd, expectMatch]
            · simp only [callScan, hmat, hd, ← he]
            · simp only [callScan, hmat, hd, hw]
          · by_cases hn : (!d || (ce.vec act.meth).length == 1) = true
            · have hs4 : ({ act with pc := .check a rest } : Act V).step ce id m =
                  some ({ act with via := some a, pc := .inc a }, m) := by
                simp only [Act.step, hc, hd, hn, if_true]
              obtain ⟨m', g1, g2, g3, g4⟩ := ends_call (ce := ce) (id := id)
                (act := { act with via := some a, pc := .inc a }) rfl hc w hw
              have hcx : ce.cx { act with via := some a, pc := .inc a } = ce.cx act := rfl
              rw [hcx] at g1 g2 g4
              simp only at g1 g2 g4
              have key : ∀ o, e.call (ce.cx act) (ce.info act.meth) act.args w = o →
                  callScan (ce.cx act) (ce.info act.meth) act.args (ce.vec act.meth).length
                    (e :: rest.map fun a => (m.heap a).exp) w =
                  ((match o.1 with | .ok v => .ok (some v) | .error p => .error p),
                    o.2.1 :: rest.map fun a => (m.heap a).exp, o.2.2) := by
                rintro ⟨o1, o2, o3⟩ ho
                simp only [callScan, hmat, hd, hn, if_true, ho]
                cases o1 <;> rfl
              rw [key _ rfl]
              refine ⟨m', ?_, ?_, g4, ?_, ?_⟩
              · refine .step hs1 (.step hs3 (.step hs4 ?_))
                have hexp : ∀ x : Except Panic V, expectMatch (ce.cx act) (ce.info act.meth) act.args
                    (match x with | .ok v => .ok (some v) | .error p => .error p) = x := by
                  intro x; cases x <;> rfl
                simp only [hexp]
                exact g1
              · simp only [g2, List.cons.injEq, true_and]
                refine List.map_congr_left (fun b hb => ?_)
                rw [g3 b (fun hx => hna (hx ▸ hb))]
              · intro a' ha'
                rcases List.mem_cons.mp ha' with rfl | h
                · rw [g2]; exact ⟨rfl, rfl⟩
                · rw [g3 a' (fun hx => hna (hx ▸ h))]; exact hfree a' ha'
              · intro b hb
                simp only [List.mem_cons, not_or] at hb
                exact g3 b hb.1
            · refine skip _ rfl ?_ (fun r m' h => .step hs1 (.step hs3 (.step
                (act1 := { act with pc := .scan rest }) (m1 := m) ?_ h)))
              · simp only [callScan, hmat, hd, hn]; rfl
              · simp only [Act.step, hc, hd, hn]; rfl

end Mockall
