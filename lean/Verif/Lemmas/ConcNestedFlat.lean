import Verif.Lemmas.ConcNested
import Verif.Props.ConcProgress

/-! # Executions without nested calls are executions with nested calls -/

set_option linter.unusedSimpArgs false

namespace Mockall

variable {V : Type}

/-! ## User code that does not call -/

theorem evalAll_scripted (r : Except Panic Bool) (ps : List (Pred V)) (args : List V) :
    ((evalAll (ps.map fun p => { p with eval := fun _ => r }) args).map fun bs => bs.all id) =
      if ps.isEmpty || args.isEmpty then .ok true else r := by
  cases r with
  | error p => cases ps <;> cases args <;> rfl
  | ok b =>
    have h : ∀ (ps : List (Pred V)) (args : List V),
        evalAll (ps.map fun p => { p with eval := fun _ => .ok b }) args =
          .ok (List.replicate (min ps.length args.length) b) := by
      intro ps
      induction ps with
      | nil => intro args; simp [evalAll]
      | cons p ps ih =>
        intro args
        cases args with
        | nil => simp [evalAll]
        | cons a as =>
          simp only [List.map_cons, evalAll, ih as]
          simp only [List.length_cons, Nat.succ_min_succ, List.replicate_succ]
          rfl
    rw [h]
    cases ps with
    | nil => simp [Except.map]
    | cons p ps =>
      cases args with
      | nil => simp [Except.map]
      | cons a as =>
        simp only [List.length_cons, Nat.succ_min_succ, Except.map, List.isEmpty_cons, Bool.or_self,
          Bool.false_eq_true, if_false, Nat.succ_eq_add_one, List.all_replicate]
        simp

/-- If user code answers what the functions would have answered, then so does the matcher. -/
theorem Matcher.scripted_matches (tid : Nat) (x : Matcher V) (args : List V) :
    (x.scripted (x.matches tid args)).matches tid args = x.matches tid args := by
  cases x with
  | always => rfl
  | func f => rfl
  | funcSt owner f => simp only [Matcher.scripted, Matcher.matches]; split <;> rfl
  | pred ps =>
    have := evalAll_scripted ((Matcher.pred ps).matches tid args) ps args
    simp only [Matcher.scripted]
    change (evalAll _ args).map (fun bs => bs.all id) = _
    rw [this]
    split
    next h =>
      cases ps with
      | nil => rfl
      | cons p ps =>
        cases args with
        | nil => rfl
        | cons a as => simp at h
    · rfl

/-- The answer of a return closure when it is taken as the function it is in `Conc/Call.lean`. -/
def StaticRfunc.answer (args : List V) : StaticRfunc V → Except Panic V
  | .dflt | .expired => .error .poisoned
  | .mut f | .mutSt _ f => f.run f.hist args
  | .once f | .onceSt _ f => f.run args

theorem StaticRfunc.scripted_callMut (nightly : Bool) (d : Option V) (tid : Nat) (args : List V)
    (f : StaticRfunc V) :
    ((f.scripted (f.answer args)).callMut nightly d tid args).out =
      (f.callMut nightly d tid args).out ∧
    ((f.scripted (f.answer args)).callMut nightly d tid args).ran =
      (f.callMut nightly d tid args).ran ∧
    f.restored ((f.scripted (f.answer args)).callMut nightly d tid args).next =
      (f.callMut nightly d tid args).next := by
  cases f with
  | dflt => (refine ⟨?_, ?_, ?_⟩ <;> first | trivial | rfl)
  | expired => (refine ⟨?_, ?_, ?_⟩ <;> first | trivial | rfl)
  | «mut» g =>
    simp only [StaticRfunc.scripted, StaticRfunc.answer, StaticRfunc.callMut, Closure.call]
    cases g.run g.hist args <;> (refine ⟨?_, ?_, ?_⟩ <;> first | trivial | rfl)
  | mutSt o g =>
    simp only [StaticRfunc.scripted, StaticRfunc.answer, StaticRfunc.callMut, Closure.call]
    split
    · cases g.run g.hist args <;> (refine ⟨?_, ?_, ?_⟩ <;> first | trivial | rfl)
    · (refine ⟨?_, ?_, ?_⟩ <;> first | trivial | rfl)
  | once g =>
    simp only [StaticRfunc.scripted, StaticRfunc.answer, StaticRfunc.callMut]
    cases g.run args <;> (refine ⟨?_, ?_, ?_⟩ <;> first | trivial | rfl)
  | onceSt o g =>
    simp only [StaticRfunc.scripted, StaticRfunc.answer, StaticRfunc.callMut]
    split
    · cases g.run args <;> (refine ⟨?_, ?_, ?_⟩ <;> first | trivial | rfl)
    · (refine ⟨?_, ?_, ?_⟩ <;> first | trivial | rfl)

theorem Mem.restored_put (ans : Answer V) (m : Mem V) (a : Nat) (c d : Cell V)
    (h : (m.heap a).restored c = d) : m.restored ((m.scripted ans).put a c) = m.put a d := by
  simp only [Mem.restored, Mem.put, Mem.scripted]
  congr 1
  funext b
  split
  next hb => subst hb; exact h
  next => exact Cell.restored_scripted ans _

/-- The answer that makes user code the function it is in `Conc/Call.lean`. -/
def Act.answer (m : Mem V) (act : Act V) : Answer V :=
  match act.pc with
  | .matching a _ => ⟨(m.heap a).exp.common.matcher.matches act.tid act.args, .error .poisoned⟩
  | .run a =>
    match (m.heap a).exp.ret with
    | .static f _ => ⟨.ok true, f.answer act.args⟩
    | _ => ⟨.ok true, .error .poisoned⟩
  | _ => ⟨.ok true, .error .poisoned⟩

theorem Ret.restored_poison (r : Except Panic V) (f : StaticRfunc V) (p q : Bool) :
    (Ret.static f p).restored (.static (f.scripted r) q) = .static f q := by
  simp [Ret.restored, StaticRfunc.restored_scripted]

/-- If user code that is executed answers what the function would have answered, the step is that of
`Conc/Call.lean`. -/
theorem Act.step_scripted (env : CEnv V) (id : Nat) (act : Act V) (m : Mem V) (ans : Answer V)
    (hmatch : ∀ a rest, act.pc = .matching a rest → ((m.heap a).exp.common.matcher.scripted ans.verdict).matches
      act.tid act.args = (m.heap a).exp.common.matcher.matches act.tid act.args)
    (hrun : ∀ a r p, act.pc = .run a → (m.heap a).exp.ret = .static r p → ∀ nightly d,
      ((r.scripted ans.value).callMut nightly d act.tid act.args).out = (r.callMut nightly d act.tid act.args).out ∧
      ((r.scripted ans.value).callMut nightly d act.tid act.args).ran = (r.callMut nightly d act.tid act.args).ran ∧
      r.restored ((r.scripted ans.value).callMut nightly d act.tid act.args).next =
        (r.callMut nightly d act.tid act.args).next) :
    (act.step env id (m.scripted ans)).map (fun r => (r.1, m.restored r.2)) = act.step env id m := by
  have hself := Mem.restored_scripted ans m
  have hheap : ∀ a, (m.scripted ans).heap a = (m.heap a).scripted ans := fun _ => rfl
  have hput := fun a c d h => Mem.restored_put ans m a c d h
  unfold Act.step
  cases hpc : act.pc with
  | scan rest =>
    cases rest with
    | nil => simp [hself]
    | cons a rest =>
      simp only [hheap]
      have e1 : ((m.heap a).scripted ans).mheld = (m.heap a).mheld := rfl
      have e2 : ((m.heap a).scripted ans).exp.common.mpoison = (m.heap a).exp.common.mpoison := rfl
      rw [e1, e2]
      cases (m.heap a).mheld with
      | some _ => rfl
      | none =>
        simp only
        split
        · simp [hself]
        · simp only [Option.map_some]
          rw [hput]
          simp only [Cell.restored, Cell.scripted, Ret.restored_scripted]
  | matching a rest =>
    have hm : ((m.heap a).scripted ans).exp.common.matcher.matches act.tid act.args =
        (m.heap a).exp.common.matcher.matches act.tid act.args := by
      simp only [Cell.scripted]
      exact hmatch a rest hpc
    simp only [hheap, hm, Option.map_some]
    rw [hput]
    simp only [Cell.restored, Cell.scripted, Ret.restored_scripted]
  | check a rest =>
    simp only [hheap]
    have e1 : ((m.heap a).scripted ans).exp.isDone = (m.heap a).exp.isDone := rfl
    rw [e1]
    split
    · simp [hself]
    · split <;> simp [hself]
  | inc a =>
    simp only [hheap, Option.map_some]
    rw [hput]
    · rfl
    · simp only [Cell.restored, Cell.scripted, Ret.restored_scripted]
  | callFail a e =>
    simp only [hheap]
    have e1 : ((m.heap a).scripted ans).mheld = (m.heap a).mheld := rfl
    have e2 : ((m.heap a).scripted ans).exp.common.mpoison = (m.heap a).exp.common.mpoison := rfl
    have e3 : ((m.heap a).scripted ans).exp.common.matcher.display =
      (m.heap a).exp.common.matcher.display := Matcher.scripted_display _ _
    rw [e1, e2, e3]
    split <;> simp [hself]
  | verify a =>
    simp only [hheap]
    have e1 : ∀ d, ((m.heap a).scripted ans).exp.common.verifySequence
      (m.scripted ans).seqs d = (m.heap a).exp.common.verifySequence m.seqs d := fun _ => rfl
    rw [e1]
    split <;> simp [hself]
  | loadLow a =>
    simp only [Option.map_some, hself]
    rfl
  | loadHigh a low =>
    simp only [Option.map_some, hself]
    rfl
  | satisfy a =>
    have e1 : ((m.heap a).scripted ans).exp.common.satisfySequence
      (m.scripted ans).seqs = (m.heap a).exp.common.satisfySequence m.seqs := rfl
    simp only [Option.map_some, hheap, e1]
    have := congrArg Mem.heap hself
    simp only [Mem.restored] at this ⊢
    rw [this]
    rfl
  | ret a =>
    simp only [hheap]
    cases hret : (m.heap a).exp.ret with
    | ref r =>
      have e1 : ((m.heap a).scripted ans).exp.ret = .ref r := by
        simp [Cell.scripted, hret, Ret.scripted]
      simp only [e1]
      split <;> simp [hself]
    | static r p =>
      have e1 : ((m.heap a).scripted ans).exp.ret =
          .static (r.scripted ans.value) p := by
        simp [Cell.scripted, hret, Ret.scripted]
      have e2 : ((m.heap a).scripted ans).rheld = (m.heap a).rheld := rfl
      simp only [e1, e2]
      split
      · rfl
      · split
        · simp [hself]
        · simp only [Option.map_some]
          rw [hput]
          simp only [Cell.restored, Cell.scripted, Ret.restored_scripted]
    | refMut r =>
      have e1 : ((m.heap a).scripted ans).exp.ret = .refMut r := by
        simp [Cell.scripted, hret, Ret.scripted]
      have e2 : ∀ w, ((m.heap a).scripted ans).exp.ret_call (env.cx act) (env.info act.meth)
          act.args w =
          (((m.heap a).exp.ret_call (env.cx act) (env.info act.meth) act.args w).1,
           { ((m.heap a).exp.ret_call (env.cx act) (env.info act.meth) act.args w).2.1 with
              common := ((m.heap a).scripted ans).exp.common },
           ((m.heap a).exp.ret_call (env.cx act) (env.info act.meth) act.args w).2.2) := by
        intro w
        have d : ((m.heap a).scripted ans).exp.common.matcher.display =
          (m.heap a).exp.common.matcher.display := Matcher.scripted_display _ _
        have mp : ((m.heap a).scripted ans).exp.common.mpoison =
          (m.heap a).exp.common.mpoison := rfl
        simp only [Expectation.ret_call, e1, hret, d, mp]
        split
        · simp [Cell.scripted, hret, Ret.scripted]
        · split <;> rfl
      have e3 := ret_call_common (env.cx act) (env.info act.meth) act.args (m.heap a).exp
        ⟨m.seqs, 0, [], [], m.runs⟩
      have e4 : ∀ w, ∃ r', ((m.heap a).exp.ret_call (env.cx act) (env.info act.meth) act.args w).2.1.ret =
          .refMut r' := by
        intro w
        simp only [Expectation.ret_call, hret]
        repeat' split
        all_goals first | exact ⟨_, rfl⟩ | exact ⟨_, hret⟩
      obtain ⟨r', e4⟩ := e4 ⟨m.seqs, 0, [], [], m.runs⟩
      simp only [e1, Option.map_some, e2]
      have hp := hput a ({ (m.heap a).scripted ans with exp :=
          { ((m.heap a).exp.ret_call (env.cx act) (env.info act.meth) act.args
              ⟨m.seqs, 0, [], [], m.runs⟩).2.1 with
            common := ((m.heap a).scripted ans).exp.common } })
        { m.heap a with exp := ((m.heap a).exp.ret_call (env.cx act) (env.info act.meth) act.args
              ⟨m.seqs, 0, [], [], m.runs⟩).2.1 } (by
          simp only [Cell.restored, Cell.scripted, e4, hret, Ret.restored]
          rw [← e3, ← e4])
      have hp := congrArg Mem.heap hp
      simp only [Mem.restored] at hp ⊢
      refine congrArg some (congrArg _ ?_)
      exact congrArg (fun h => Mem.mk h _ _) hp
  | run a =>
    simp only [hheap]
    cases hret : (m.heap a).exp.ret with
    | ref r =>
      have e1 : ((m.heap a).scripted ans).exp.ret = .ref r := by
        simp [Cell.scripted, hret, Ret.scripted]
      simp only [e1]
      rfl
    | refMut r =>
      have e1 : ((m.heap a).scripted ans).exp.ret = .refMut r := by
        simp [Cell.scripted, hret, Ret.scripted]
      simp only [e1]
      rfl
    | static r p =>
      have e1 : ((m.heap a).scripted ans).exp.ret = .static (r.scripted ans.value) p := by
        simp [Cell.scripted, hret, Ret.scripted]
      obtain ⟨k1, k2, k3⟩ := hrun a r p hpc hret env.nightly (env.info act.meth).default
      have hset : ∀ (h : Option Nat) (q : Bool), (m.heap a).restored
          { (m.heap a).scripted ans with
            exp := { ((m.heap a).scripted ans).exp with
              ret := .static ((r.scripted ans.value).callMut env.nightly
                (env.info act.meth).default act.tid act.args).next q }, rheld := h } =
          { m.heap a with
            exp := { (m.heap a).exp with
              ret := .static (r.callMut env.nightly (env.info act.meth).default act.tid act.args).next q },
            rheld := h } := by
        intro h q
        simp only [Cell.restored, Cell.scripted, hret, Ret.restored, k3]
      have hset' := fun h q => congrArg Mem.heap (hput a _ _ (hset h q))
      simp only [Mem.restored] at hset'
      simp only [e1, k1, k2]
      split
      · refine congrArg some (congrArg _ ?_)
        exact congrArg (fun h => Mem.mk h _ _) (hset' none p)
      · refine congrArg some (congrArg _ ?_)
        exact congrArg (fun h => Mem.mk h _ _) (hset' (m.heap a).rheld p)
      · refine congrArg some (congrArg _ ?_)
        exact congrArg (fun h => Mem.mk h _ _) (hset' none true)
  | runFail a e =>
    simp only [hheap]
    have e1 : ((m.heap a).scripted ans).mheld = (m.heap a).mheld := rfl
    have e2 : ((m.heap a).scripted ans).exp.common.mpoison = (m.heap a).exp.common.mpoison := rfl
    have e3 : ((m.heap a).scripted ans).exp.common.matcher.display =
      (m.heap a).exp.common.matcher.display := Matcher.scripted_display _ _
    rw [e1, e2, e3]
    cases (m.heap a).mheld with
    | some _ => rfl
    | none =>
      simp only
      cases hret : (m.heap a).exp.ret with
      | ref r => simp only [Cell.scripted, hret, Ret.scripted]; rfl
      | refMut r => simp only [Cell.scripted, hret, Ret.scripted]; rfl
      | static r p =>
        have e4 : ((m.heap a).scripted ans).exp.ret =
            .static (r.scripted ans.value) p := by
          simp [Cell.scripted, hret, Ret.scripted]
        simp only [e4, Option.map_some]
        rw [hput]
        simp only [Cell.restored, Cell.scripted, hret, Ret.restored_poison]
  | refFail a e =>
    simp only [hheap]
    have e1 : ((m.heap a).scripted ans).mheld = (m.heap a).mheld := rfl
    have e2 : ((m.heap a).scripted ans).exp.common.mpoison = (m.heap a).exp.common.mpoison := rfl
    have e3 : ((m.heap a).scripted ans).exp.common.matcher.display =
      (m.heap a).exp.common.matcher.display := Matcher.scripted_display _ _
    rw [e1, e2, e3]
    split <;> simp [hself]
  | done r => rfl

theorem Act.step_answer (env : CEnv V) (id : Nat) (act : Act V) (m : Mem V) :
    (act.step env id (m.scripted (act.answer m))).map (fun r => (r.1, m.restored r.2)) =
      act.step env id m := by
  refine act.step_scripted env id m _ ?_ ?_
  · intro a rest hpc
    have ha : (act.answer m).verdict = (m.heap a).exp.common.matcher.matches act.tid act.args := by
      simp [Act.answer, hpc]
    rw [ha]
    exact Matcher.scripted_matches _ _ _
  · intro a r p hpc hret nightly d
    have ha : (act.answer m).value = r.answer act.args := by
      simp [Act.answer, hpc, hret]
    rw [ha]
    exact StaticRfunc.scripted_callMut _ _ _ _ _

/-! ## Calls that are not nested are a special case -/

/-- In an execution of `Conc/Call.lean` a thread is in at most one call. -/
def CState.Flat (s : CState V) : Prop :=
  ∀ (i j : Nat) (x y : Act V), s.acts[i]? = some x → s.acts[j]? = some y → i < j →
    x.finished = true ∨ y.finished = true ∨ y.tid ≠ x.tid

theorem Act.Step.unfinished {env : CEnv V} {id : Nat} {act act' : Act V} {m m' : Mem V}
    (hs : Act.Step env id act m act' m') : act.finished = false := by
  cases hs <;> simp [Act.finished, *]

theorem flat_run (env : CEnv V) (m0 : Mem V) (sch : List (Sched V)) : (after env m0 sch).Flat := by
  refine CState.run_induct (P := CState.Flat) (by simp [CState.Flat]) ?_ ?_ sch
  · intro t meth tid args ih hfree i j x y hx hy hij
    simp only [acts_push] at hx hy
    split at hy
    next hj =>
      cases hy
      rw [if_neg (by omega)] at hx
      rcases hfree x (List.mem_of_getElem? hx) with h | h
      · exact .inl h
      · exact .inr (.inr (by simpa [Act.start] using fun h' => h h'.symm))
    next hj =>
      have : j < t.acts.length := by
        rcases Nat.lt_or_ge j t.acts.length with h | h
        · exact h
        · rw [List.getElem?_eq_none h] at hy; cases hy
      rw [if_neg (by omega)] at hx
      exact ih i j x y hx hy hij
  · intro t id act act' m' ih hact hs i j x y hx hy hij
    simp only [acts_set hact] at hx hy
    have hu := hs.unfinished
    have ht : act'.tid = act.tid := hs.ident.2.1
    split at hx
    next hi =>
      cases hx
      rw [if_neg (by omega)] at hy
      rcases ih i j act y (hi ▸ hact) hy hij with h | h | h
      · rw [hu] at h; cases h
      · exact .inr (.inl h)
      · exact .inr (.inr (ht ▸ h))
    next hi =>
      split at hy
      next hj =>
        cases hy
        rcases ih i j x act hx (hj ▸ hact) hij with h | h | h
        · exact .inl h
        · rw [hu] at h; cases h
        · exact .inr (.inr (ht ▸ h))
      next hj => exact ih i j x y hx hy hij

end Mockall
