import Verif.Lemmas.ConcInv

/-! # More invariants of concurrent executions -/

set_option linter.unusedSimpArgs false

namespace Mockall

variable {V : Type}

/-- The expectations a program counter mentions. -/
def Pc.addrs : Pc V → List Nat
  | .scan rest => rest
  | .matching a rest | .check a rest => a :: rest
  | .inc a | .callFail a _ | .verify a | .loadLow a | .loadHigh a _ | .satisfy a | .ret a | .run a
  | .runFail a _ | .refFail a _ => [a]
  | .done _ => []

/-- A call only ever deals with the expectations of its method. -/
structure Act.Within (env : CEnv V) (act : Act V) : Prop where
  pc : ∀ a ∈ act.pc.addrs, a ∈ env.vec act.meth
  via : ∀ a, act.via = some a → a ∈ env.vec act.meth

theorem Act.Step.within {env : CEnv V} {id : Nat} {act act' : Act V} {m m' : Mem V}
    (h : Act.Step env id act m act' m') (hw : act.Within env) : act'.Within env := by
  obtain ⟨h1, h2⟩ := hw
  cases h <;> constructor <;> simp_all [Act.goto, Pc.addrs]

theorem within_run (env : CEnv V) (m0 : Mem V) (sch : List (Sched V)) :
    ∀ (c : Nat) (act : Act V), (CState.run env sch ⟨m0, []⟩).acts[c]? = some act →
      act.Within env := by
  refine CState.run_induct (P := fun s => ∀ (c : Nat) (act : Act V), s.acts[c]? = some act →
      act.Within env) (by simp) ?_ ?_ sch
  · intro t meth tid args ih _ c act hact
    simp only [acts_push] at hact
    split at hact
    · cases hact
      exact ⟨by simp [Act.start, Pc.addrs], by simp [Act.start]⟩
    · exact ih c act hact
  · intro t id act act' m' ih hact hs c x hx
    simp only [acts_set hact] at hx
    split at hx
    · cases hx; exact hs.within (ih id act hact)
    · exact ih c x hx

/-- A matcher is only poisoned by a call that evaluates it. -/
theorem Act.Step.mpoison {env : CEnv V} {id : Nat} {act act' : Act V} {m m' : Mem V}
    (h : Act.Step env id act m act' m') (b : Nat) :
    (m'.heap b).exp.common.mpoison = (m.heap b).exp.common.mpoison ∨
    ∃ rest p, act.pc = .matching b rest ∧
      (m.heap b).exp.common.matcher.matches act.tid act.args = .error p := by
  cases h
  case matchPanic a rest p hpc hm =>
    by_cases hb : b = a
    · subst hb; exact .inr ⟨rest, p, hpc, hm⟩
    · left; simp [hb]
  case refMut a r o hpc hr ho =>
    left
    simp only [Mem.put_heap]
    split
    next hb => subst hb; subst ho; simp only [ret_call_common]
    next => rfl
  all_goals
    left
    simp only [Mem.put_heap]
    try split
    all_goals first
      | rfl
      | (subst_vars; rfl)

/-! ## A method with a single expectation -/

/-- The states of a call on a method whose only expectation `a` matches. -/
def Act.Sole (a : Nat) (fname disp : String) (act : Act V) : Prop :=
  act.pc = .scan [a] ∨ act.pc = .matching a [] ∨ act.pc = .check a [] ∨
  (act.via = some a ∧ (act.passed = true ∨ act.pc = .inc a ∨ (∃ e, act.pc = .callFail a e) ∨
    ∃ e, act.pc = .done (.error (.call fname disp e))))

/-- What `Times.call` can answer while the count has room. -/
theorem times_call_total {t : Times} (h : t.count < usizeMax) (he : 0 < t.range.end_) :
    ∃ r, t.call.1 = .ok r := by
  unfold Times.call
  simp only [addOne]
  rw [if_neg (by omega)]
  simp only [subOne]
  repeat' split
  all_goals first
    | exact ⟨_, rfl⟩
    | (rename_i h1; split at h1 <;> first | omega | cases h1)
    | omega

/-- The invariant for a sole expectation. -/
structure SoleInv (env : CEnv V) (m0 : Mem V) (mt a : Nat) (s : CState V) : Prop where
  acts : ∀ (c : Nat) (act : Act V), s.acts[c]? = some act → act.meth = mt →
    act.Sole a (env.info mt).funcname (m0.heap a).exp.common.matcher.display
  poison : (s.mem.heap a).exp.common.mpoison = false

/-- A count has room while a call that is going to be counted is not. -/
theorem CInv.count_room {m0 : Mem V} {t : CState V} (hi : CInv m0 t) {id : Nat} {act : Act V}
    (hact : t.acts[id]? = some act) {a : Nat} (hf : (m0.heap a).count + t.acts.length ≤ usizeMax)
    (hpc : act.pc = .inc a) : (t.mem.heap a).count < usizeMax := by
  rw [hi.count a]
  have hlen : t.acts.countP (Act.counted a) < t.acts.length := by
    have := countP_set (Act.counted a) t.acts id act
      ({ act with via := some a, pc := .done (.error .poisoned) } : Act V) hact
    have h4 : (t.acts.set id
      ({ act with via := some a, pc := .done (.error .poisoned) } : Act V)).countP
        (Act.counted a) ≤ t.acts.length := by
      have := List.countP_le_length (p := Act.counted a) (l := t.acts.set id
        ({ act with via := some a, pc := .done (.error .poisoned) } : Act V))
      simpa using this
    have h5 : act.counted a = false := by simp [Act.counted, hpc]
    have h6 : ({ act with via := some a, pc := .done (.error .poisoned) } :
      Act V).counted a = true := by simp [Act.counted]
    rw [h5, h6] at this
    simp only [Bool.false_eq_true, if_false, if_true] at this
    omega
  rw [Nat.mod_eq_of_lt (by omega)]
  omega

theorem SoleInv.step {env : CEnv V} {m0 : Mem V} {mt a : Nat} (hvec : env.vec mt = [a])
    (hown : ∀ mt', a ∈ env.vec mt' → mt' = mt)
    (hend : 0 < (m0.heap a).exp.common.times.range.end_) {t : CState V} (h : SoleInv env m0 mt a t)
    {id : Nat} {act act' : Act V} {m' : Mem V} (hact : t.acts[id]? = some act) (hcoh : act.Coh)
    (hwithin : act.Within env) (hsame : (t.mem.heap a).Same (m0.heap a))
    (hcount : act.pc = .inc a → (t.mem.heap a).count < usizeMax)
    (hself : act.meth = mt → (t.mem.heap a).exp.common.matcher.matches act.tid act.args = .ok true)
    (hs : Act.Step env id act t.mem act' m') :
    SoleInv env m0 mt a { mem := m', acts := t.acts.set id act' } := by
  obtain ⟨h1, h2⟩ := h
  obtain ⟨hm1, hm2, hm3⟩ := hs.ident
  refine ⟨?_, ?_⟩
  · intro c x hx hmt
    simp only [acts_set hact] at hx
    split at hx
    · cases hx
      rw [hm1] at hmt
      have hsole := h1 id act hact hmt
      have hok := hself hmt
      have hrange := hsame.range
      have hdisp := hsame.matcher
      have hlen1 : (env.vec act.meth).length = 1 := by rw [hmt, hvec]; rfl
      unfold Act.Sole at hsole ⊢
      have hc := hcoh
      have hc' := hs.coh hc
      cases hs
      case checkPanic b rest p hpc hd =>
        exfalso
        simp only [hpc, reduceCtorEq, false_or, Pc.check.injEq] at hsole
        rcases hsole with ⟨rfl, rfl⟩ | ⟨hv, h⟩
        · simp only [Expectation.isDone, Common.isDone, Times.isDone, subOne, hrange] at hd
          rw [if_neg (by omega)] at hd
          cases hd
        · simp only [Act.Coh, hpc] at hc
          rw [hc.1] at hv; cases hv
      case incPanic b p hpc hcall =>
        exfalso
        simp only [hpc, reduceCtorEq, false_or, Pc.inc.injEq, exists_false, or_false] at hsole
        simp only [Act.Coh, hpc] at hc
        simp only [hc.2, Bool.false_eq_true, false_or] at hsole
        obtain ⟨_, rfl⟩ := hsole
        obtain ⟨r, hr⟩ := times_call_total (t := (t.mem.heap b).exp.common.times) (hcount hpc)
          (by rw [hrange]; exact hend)
        rw [hr] at hcall; cases hcall
      case callFail b e hpc free =>
        simp only [Act.Coh, hpc] at hc
        simp only [hpc, reduceCtorEq, false_or] at hsole
        obtain rfl : b = a := by
          have := hc.1.symm.trans hsole.1
          injection this
        have hv := hsole.1
        right; right; right
        refine ⟨hv, .inr (.inr (.inr ⟨e, ?_⟩))⟩
        simp only [Act.goto, Cell.say, h2, hdisp, hmt, Bool.false_eq_true, if_false]
      all_goals simp_all [Act.goto, Act.Coh]
    · exact h1 c x hx hmt
  · rcases hs.mpoison a with h | ⟨rest, p, hpc, hp⟩
    · rw [h]; exact h2
    · exfalso
      have := hwithin.pc a (by simp [hpc, Pc.addrs])
      rw [hself (hown _ this)] at hp
      cases hp

theorem sole_run {env : CEnv V} {m0 : Mem V} (hq : m0.Quiet) {mt a : Nat}
    (hvec : env.vec mt = [a]) (hown : ∀ mt', a ∈ env.vec mt' → mt' = mt)
    (hend : 0 < (m0.heap a).exp.common.times.range.end_)
    (hpois : (m0.heap a).exp.common.mpoison = false) (sch : List (Sched V))
    (hmatch : ∀ act ∈ (CState.run env sch ⟨m0, []⟩).acts, act.meth = mt →
      (m0.heap a).exp.common.matcher.matches act.tid act.args = .ok true)
    (hfit : (m0.heap a).count + (CState.run env sch ⟨m0, []⟩).acts.length ≤ usizeMax) :
    SoleInv env m0 mt a (CState.run env sch ⟨m0, []⟩) := by
  let P : CState V → Prop := fun s => CInv m0 s ∧ (∀ (c : Nat) (act : Act V), s.acts[c]? = some act →
      act.Within env) ∧ ((∀ act ∈ s.acts, act.meth = mt →
      (m0.heap a).exp.common.matcher.matches act.tid act.args = .ok true) →
      (m0.heap a).count + s.acts.length ≤ usizeMax → SoleInv env m0 mt a s)
  suffices hh : P (CState.run env sch ⟨m0, []⟩) from hh.2.2 hmatch hfit
  refine CState.run_induct (P := P) ⟨CInv.init hq, by simp, fun _ _ => ⟨by simp, hpois⟩⟩ ?_ ?_ sch
  · rintro t meth tid args ⟨hi, hw, ih⟩ _
    refine ⟨hi.start meth tid args, ?_, ?_⟩
    · intro c act hact
      simp only [acts_push] at hact
      split at hact
      · cases hact
        exact ⟨by simp [Act.start, Pc.addrs], by simp [Act.start]⟩
      · exact hw c act hact
    · intro hm hf
      simp only [List.length_append, List.length_cons, List.length_nil] at hf
      obtain ⟨h1, h2⟩ := ih (fun act hact => hm act (by simp [hact])) (by omega)
      refine ⟨?_, h2⟩
      intro c act hact hmt
      simp only [acts_push] at hact
      split at hact
      · cases hact
        left
        simp only [Act.start] at hmt ⊢
        rw [hmt, hvec]
      · exact h1 c act hact hmt
  · rintro t id act act' m' ⟨hi, hw, ih⟩ hact hs
    have hlt : id < t.acts.length := by
      rcases Nat.lt_or_ge id t.acts.length with h | h
      · exact h
      · rw [List.getElem?_eq_none h] at hact; cases hact
    have hi' := hi.step hact hs
    have hw' : ∀ (c : Nat) (x : Act V), (t.acts.set id act')[c]? = some x → x.Within env := by
      intro c x hx
      simp only [acts_set hact] at hx
      split at hx
      · cases hx; exact hs.within (hw id act hact)
      · exact hw c x hx
    refine ⟨hi', hw', ?_⟩
    intro hm hf
    simp only [List.length_set] at hf
    obtain ⟨hm1, hm2, hm3⟩ := hs.ident
    have hm' : ∀ x ∈ t.acts, x.meth = mt →
        (m0.heap a).exp.common.matcher.matches x.tid x.args = .ok true := by
      intro x hx hmt
      obtain ⟨c, hc⟩ := List.getElem?_of_mem hx
      by_cases hcid : c = id
      · subst hcid
        rw [hact] at hc; cases hc
        have := hm act' (List.mem_of_getElem? (i := c) (by simp [acts_set hact])) (by rw [hm1, hmt])
        rwa [hm2, hm3] at this
      · exact hm x (List.mem_of_getElem? (i := c) (by simp [acts_set hact, hcid, hc])) hmt
    refine SoleInv.step hvec hown hend (ih hm' (by omega)) hact (hi.coh id act hact)
      (hw id act hact) (hi.same a) ?_ ?_ hs
    · exact hi.count_room hact hf
    · intro hmt
      rw [(hi.same a).matcher]
      exact hm' act (List.mem_of_getElem? hact) hmt

end Mockall

namespace Mockall

variable {V : Type}

/-! ## Return functions -/

/-- The ghost name of the user closure held by a return function. -/
def Ret.tag? : Ret V → Option Nat
  | .static (.mut f) _ | .static (.mutSt _ f) _ => some f.tag
  | .static (.once f) _ | .static (.onceSt _ f) _ => some f.tag
  | .refMut (.mut f _) | .refMut (.mutSt _ f _) => some f.tag
  | _ => none

/-- The two ways a step can deal with return functions. -/
theorem Act.Step.rets {env : CEnv V} {id : Nat} {act act' : Act V} {m m' : Mem V}
    (h : Act.Step env id act m act' m') :
    -- not at all (but for poisoning)
    (m'.runs = m.runs ∧
      (∀ b, (m'.heap b).exp.ret = (m.heap b).exp.ret ∨
        ∃ r p, (m.heap b).exp.ret = .static r p ∧ (m'.heap b).exp.ret = .static r true) ∧
      (∀ v, act'.pc = .done (.ok v) → ∃ a r, act.pc = .ret a ∧ (m.heap a).exp.ret = .ref r)) ∨
    -- by running the one of a method that returns by value
    (∃ a r p p' o, act.pc = .run a ∧ (m.heap a).exp.ret = .static r p ∧
      o = r.callMut env.nightly (env.info act.meth).default act.tid act.args ∧
      m'.runs = m.runs ++ runEntry (env.cx act) act.args o.ran ∧
      (m'.heap a).exp.ret = .static o.next p' ∧
      (∀ b, b ≠ a → (m'.heap b).exp.ret = (m.heap b).exp.ret) ∧
      (∀ v, act'.pc = .done (.ok v) → o.out = .ok (.ok v))) ∨
    -- or of a `&mut self` method
    (∃ a r o, act.pc = .ret a ∧ (m.heap a).exp.ret = .refMut r ∧
      o = (m.heap a).exp.ret_call (env.cx act) (env.info act.meth) act.args
        ⟨m.seqs, 0, [], [], m.runs⟩ ∧
      m'.runs = o.2.2.runs ∧ (m'.heap a).exp.ret = o.2.1.ret ∧
      (∀ b, b ≠ a → (m'.heap b).exp.ret = (m.heap b).exp.ret)) := by
  cases h
  case runOk a r poison o v hpc hr ho hv =>
    right; left
    refine ⟨a, r, poison, poison, o, hpc, hr, ho, rfl, ?_, ?_, ?_⟩
    · simp [Cell.setRet, Cell.rlock]
    · intro b hb; simp [hb]
    · intro w hw; simp only [Act.goto] at hw; cases hw; exact hv
  case runErr a r poison o v hpc hr ho hv =>
    right; left
    refine ⟨a, r, poison, poison, o, hpc, hr, ho, rfl, ?_, ?_, ?_⟩
    · simp [Cell.setRet, Cell.rlock]
    · intro b hb; simp [hb]
    · intro w hw; simp only [Act.goto] at hw; cases hw
  case runPanic a r poison o v hpc hr ho hv =>
    right; left
    refine ⟨a, r, poison, true, o, hpc, hr, ho, rfl, ?_, ?_, ?_⟩
    · simp [Cell.setRet, Cell.rlock]
    · intro b hb; simp [hb]
    · intro w hw; simp only [Act.goto] at hw; cases hw
  case refMut a r o hpc hr ho =>
    right; right
    refine ⟨a, r, o, hpc, hr, ho, rfl, by simp, ?_⟩
    intro b hb; simp [hb]
  case runFail a e r poison hpc hr free =>
    left
    refine ⟨rfl, ?_, ?_⟩
    · intro b
      by_cases hb : b = a
      · subst hb; right; exact ⟨r, poison, hr, by simp [Cell.setRet, Cell.rlock]⟩
      · left; simp [hb]
    · intro w hw; simp only [Act.goto] at hw; cases hw
  case refOk a r v hpc hr hv =>
    left
    exact ⟨rfl, fun b => .inl rfl, fun w hw => ⟨a, r, hpc, hr⟩⟩
  all_goals
    left
    refine ⟨rfl, ?_, by simp [Act.goto]⟩
    intro b
    left
    simp only [Mem.put_heap]
    try split
    all_goals first
      | rfl
      | (subst_vars; rfl)

theorem StaticRfunc.callMut_tag (nightly : Bool) (d : Option V) (tid : Nat) (args : List V)
    (r : StaticRfunc V) (p p' : Bool) :
    ((Ret.static (r.callMut nightly d tid args).next p').tag? = (Ret.static r p).tag? ∨
      (Ret.static (r.callMut nightly d tid args).next p').tag? = none) ∧
    ∀ t, (r.callMut nightly d tid args).ran = some t → (Ret.static r p).tag? = some t := by
  unfold StaticRfunc.callMut Closure.call
  repeat' split
  all_goals simp_all [Ret.tag?]
  all_goals grind

theorem RefMutRfunc.callMut_tag (nightly : Bool) (tid : Nat) (args : List V) (r : RefMutRfunc V) :
    (Ret.refMut (r.callMut nightly tid args).next).tag? = (Ret.refMut r).tag? ∧
    ∀ t, (r.callMut nightly tid args).ran = some t → (Ret.refMut r).tag? = some t := by
  unfold RefMutRfunc.callMut Closure.call
  repeat' split
  all_goals simp_all [Ret.tag?]
  all_goals grind

theorem RefMutRfunc.write_tag (v : V) (r : RefMutRfunc V) :
    (Ret.refMut (r.write v)).tag? = (Ret.refMut r).tag? := by
  unfold RefMutRfunc.write
  split <;> rfl

/-- How often the closure named `t` has run. -/
def Mem.ranTimes (m : Mem V) (t : Nat) : Nat := (m.runs.filter fun r => r.tag == t).length

/-- A step only runs the closure of the expectation it is about, and never installs another one. -/
theorem Act.Step.tags {env : CEnv V} {id : Nat} {act act' : Act V} {m m' : Mem V}
    (h : Act.Step env id act m act' m') :
    (∀ b, (m'.heap b).exp.ret.tag? = (m.heap b).exp.ret.tag? ∨ (m'.heap b).exp.ret.tag? = none) ∧
    (m'.runs = m.runs ∨ ∃ a t, (act.pc = .run a ∨ act.pc = .ret a) ∧
      (m.heap a).exp.ret.tag? = some t ∧ m'.runs = m.runs ++ [⟨t, act.tid, act.args⟩]) := by
  rcases h.rets with ⟨h1, h2, _⟩ | ⟨a, r, p, p', o, hpc, hr, ho, h1, h2, h3, _⟩ |
    ⟨a, r, o, hpc, hr, ho, h1, h2, h3⟩
  · refine ⟨?_, .inl h1⟩
    intro b
    rcases h2 b with h | ⟨r, p, h, h'⟩
    · left; rw [h]
    · left; rw [h, h']; cases r <;> rfl
  · have ht := StaticRfunc.callMut_tag env.nightly (env.info act.meth).default act.tid act.args r p p'
    rw [← ho] at ht
    refine ⟨?_, ?_⟩
    · intro b
      by_cases hb : b = a
      · subst hb; rw [h2, hr]; exact ht.1
      · left; rw [h3 b hb]
    · rcases hran : o.ran with _ | t
      · left; rw [h1, hran]; simp [runEntry]
      · right
        refine ⟨a, t, .inl hpc, by rw [hr]; exact ht.2 t hran, ?_⟩
        rw [h1, hran]; rfl
  · have ht := RefMutRfunc.callMut_tag env.nightly act.tid act.args r
    have hret : o.2.1.ret.tag? = (Ret.refMut r).tag? ∧ (o.2.2.runs = m.runs ∨
        o.2.2.runs = m.runs ++ runEntry (env.cx act) act.args (r.callMut env.nightly act.tid
          act.args).ran) := by
      subst ho
      unfold Expectation.ret_call
      rw [hr]
      simp only
      split
      · rw [hr]; exact ⟨rfl, .inl rfl⟩
      · split
        · exact ⟨by rw [RefMutRfunc.write_tag]; exact ht.1, .inr rfl⟩
        · exact ⟨ht.1, .inr rfl⟩
        · exact ⟨ht.1, .inr rfl⟩
    refine ⟨?_, ?_⟩
    · intro b
      by_cases hb : b = a
      · subst hb; left; rw [h2, hr, hret.1]
      · left; rw [h3 b hb]
    · rw [h1]
      rcases hret.2 with h | h
      · exact .inl h
      · rcases hran : (r.callMut env.nightly act.tid act.args).ran with _ | t
        · left; rw [h, hran]; simp [runEntry]
        · right
          refine ⟨a, t, .inr hpc, by rw [hr]; exact ht.2 t hran, ?_⟩
          rw [h, hran]; rfl

end Mockall
