import Verif.Props.ConcMixedExamples
import Verif.Lemmas.ConcNestedFlat

/-! # Where user code runs (C86) -/

namespace Mockall

open Spec.Mixed

variable {V : Type}

/-! ## Calls of methods of objects -/

theorem Matcher.scripted_idle {tid : Nat} {x : Matcher V} (h : x.enters tid = false) (r : Except Panic Bool)
    (args : List V) : (x.scripted r).matches tid args = x.matches tid args := by
  cases x with
  | always => rfl
  | func f => cases h
  | funcSt owner f =>
    have : tid ≠ owner := by simpa [Matcher.enters] using h
    simp [Matcher.scripted, Matcher.matches, this]
  | pred ps =>
    have : ps = [] := by simpa [Matcher.enters] using h
    subst this
    rfl

theorem StaticRfunc.scripted_idle {tid : Nat} {f : StaticRfunc V} (h : f.enters tid = false) (r : Except Panic V)
    (nightly : Bool) (d : Option V) (args : List V) :
    ((f.scripted r).callMut nightly d tid args).out = (f.callMut nightly d tid args).out ∧
    ((f.scripted r).callMut nightly d tid args).ran = (f.callMut nightly d tid args).ran ∧
    f.restored ((f.scripted r).callMut nightly d tid args).next = (f.callMut nightly d tid args).next := by
  cases f with
  | dflt => exact ⟨rfl, rfl, rfl⟩
  | expired => exact ⟨rfl, rfl, rfl⟩
  | «mut» g => cases h
  | once g => cases h
  | mutSt o g =>
    have : tid ≠ o := by simpa [StaticRfunc.enters] using h
    simp [StaticRfunc.scripted, StaticRfunc.callMut, this, StaticRfunc.restored]
  | onceSt o g =>
    have : tid ≠ o := by simpa [StaticRfunc.enters] using h
    simp [StaticRfunc.scripted, StaticRfunc.callMut, this, StaticRfunc.restored]

theorem Act.step_idle {env : CEnv V} {id : Nat} {act : Act V} {m : Mem V} (h : act.user m = none) (ans : Answer V) :
    (act.step env id (m.scripted ans)).map (fun r => (r.1, m.restored r.2)) = act.step env id m := by
  refine act.step_scripted env id m ans ?_ ?_
  · intro a rest hpc
    refine Matcher.scripted_idle ?_ _ _
    simp only [Act.user, hpc] at h
    split at h
    · cases h
    · rename_i hn; simpa using hn
  · intro a r p hpc hret nightly d
    refine StaticRfunc.scripted_idle ?_ _ _ _ _
    simp only [Act.user, hpc, hret] at h
    split at h
    · cases h
    · rename_i hn; simpa using hn

theorem UState.stepCall_idle {env : UEnv V} {s : UState V} {i : Nat} {x : Act V} (h : x.user s.objs.mem = none)
    (ans ans' : Answer V) : s.stepCall env i x ans = s.stepCall env i x ans' := by
  have h1 := Act.step_idle (env := env.obj) (id := i) h ans
  have h2 := Act.step_idle (env := env.obj) (id := i) h ans'
  rw [← h2] at h1
  unfold UState.stepCall
  cases e1 : x.step env.obj i (s.objs.mem.scripted ans) with
  | none =>
    cases e2 : x.step env.obj i (s.objs.mem.scripted ans') with
    | none => rfl
    | some r => rw [e1, e2] at h1; cases h1
  | some r =>
    cases e2 : x.step env.obj i (s.objs.mem.scripted ans') with
    | none => rw [e1, e2] at h1; cases h1
    | some r' =>
      rw [e1, e2] at h1
      simp only [Option.map_some, Option.some.injEq, Prod.mk.injEq] at h1
      obtain ⟨h3, h4⟩ := h1
      have h5 := congrArg Mem.heap h4
      have h6 := congrArg Mem.seqs h4
      have h7 := congrArg Mem.runs h4
      simp only [Mem.restored] at h6 h7
      simp only [h3, h5, h6, h7]

/-! ## Operations on static methods -/

theorem Expectation.restored_scripted (ans : Answer V) (e : Expectation V) : e.restored (e.scripted ans) = e := by
  simp only [Expectation.restored, Expectation.scripted, Ret.restored_scripted]

theorem Expectation.matches_idle {tid : Nat} {e : Expectation V}
    (h : (!e.common.mpoison && e.common.matcher.enters tid) = false) (ans : Answer V) (args : List V) :
    ((e.scripted ans).matches tid args).1 = (e.matches tid args).1 ∧
      e.restored ((e.scripted ans).matches tid args).2 = (e.matches tid args).2 := by
  unfold Expectation.matches Common.matches
  have e1 : (e.scripted ans).common.mpoison = e.common.mpoison := rfl
  simp only [e1]
  by_cases hp : e.common.mpoison = true
  · simp only [hp, if_true, true_and]
    exact Expectation.restored_scripted ans e
  · have he : e.common.matcher.enters tid = false := by simpa [hp] using h
    have e2 : (e.scripted ans).common.matcher.matches tid args = e.common.matcher.matches tid args :=
      Matcher.scripted_idle he _ _
    simp only [hp, Bool.false_eq_true, if_false, e2]
    cases e.common.matcher.matches tid args with
    | ok b => exact ⟨rfl, Expectation.restored_scripted ans e⟩
    | error p =>
      refine ⟨rfl, ?_⟩
      simp only [Expectation.restored, Expectation.scripted, Ret.restored_scripted]

theorem Expectation.ret_call_idle {tid : Nat} {e : Expectation V} (cx : Cx V) (hc : cx.tid = tid)
    (h : ∀ f p, e.ret = .static f p → (!p && f.enters tid) = false) (ans : Answer V) (info : FnInfo V) (args : List V)
    (w : World V) :
    ((e.scripted ans).ret_call cx info args w).1 = (e.ret_call cx info args w).1 ∧
      e.restored ((e.scripted ans).ret_call cx info args w).2.1 = (e.ret_call cx info args w).2.1 ∧
      ((e.scripted ans).ret_call cx info args w).2.2 = (e.ret_call cx info args w).2.2 := by
  have e1 : (e.scripted ans).common.mpoison = e.common.mpoison := rfl
  have e2 : (e.scripted ans).common.matcher.display = e.common.matcher.display := Matcher.scripted_display _ _
  have e0 := Expectation.restored_scripted ans e
  unfold Expectation.ret_call
  simp only [e1, e2]
  cases hret : e.ret with
  | ref r =>
    have e3 : (e.scripted ans).ret = .ref r := by simp [Expectation.scripted, hret, Ret.scripted]
    simp only [e3]
    cases r.call cx.nightly <;> exact ⟨rfl, e0, rfl⟩
  | refMut r =>
    have e3 : (e.scripted ans).ret = .refMut r := by simp [Expectation.scripted, hret, Ret.scripted]
    simp only [e3]
    split
    · exact ⟨rfl, e0, rfl⟩
    · split <;> refine ⟨rfl, ?_, rfl⟩ <;> simp only [Expectation.restored, Expectation.scripted, hret, Ret.restored]
  | static f p =>
    have e3 : (e.scripted ans).ret = .static (f.scripted ans.value) p := by
      simp [Expectation.scripted, hret, Ret.scripted]
    simp only [e3]
    split
    · exact ⟨rfl, e0, rfl⟩
    · rename_i hp
      have hf : f.enters cx.tid = false := by
        have := h f p hret
        rw [hc]
        simpa [hp] using this
      obtain ⟨k1, k2, k3⟩ := StaticRfunc.scripted_idle hf ans.value cx.nightly info.default args
      simp only [k1, k2]
      split <;> refine ⟨rfl, ?_, rfl⟩ <;>
        simp only [Expectation.restored, Expectation.scripted, hret, Ret.restored, k3]

/-- A step that evaluates a matcher. -/
theorem TState.stepAct_scan {env : Env V} {s : TState V} {id : Nat} {x : TAct V} {i : Nat} {e : Expectation V}
    (hx : s.acts[id]? = some x) (hpc : x.act.pc = .scan i)
    (he : ((s.fns x.fn).store.vec x.act.op.key)[i]? = some e) (ans : Answer V) :
    let es := ((s.fns x.fn).store.vec x.act.op.key).set i
      (e.restored ((e.scripted ans).matches x.act.tid x.act.op.args).2)
    s.stepAct env id x ans = some {
      fns := fun g => if g = x.fn then { s.fns x.fn with store := (s.fns x.fn).store.setVec x.act.op.key es } else s.fns g
      held := fun g => if g = x.fn then s.held x.fn else s.held g
      world := s.world
      acts := s.acts.set id { x with act := { x.act with pc :=
        match ((e.scripted ans).matches x.act.tid x.act.op.args).1 with
        | .error p => .leave (.error p)
        | .ok true => .check i
        | .ok false => .scan (i + 1) } } } := by
  intro es
  have hlt : i < ((s.fns x.fn).store.vec x.act.op.key).length := get_lt he
  have hid := get_lt hx
  have hv : ∀ es, ((s.fns x.fn).store.setVec x.act.op.key es).vec x.act.op.key = es := Store.vec_setVec he
  unfold TState.stepAct
  simp only [hpc, SPc.place, StaticFn.edit, he, SAct.step, SAct.inner, hv, List.getElem?_set_self hlt,
    Store.setVec_setVec, List.set_set, Env.cx]
  simp only [List.length_map, hid, List.getElem?_set_self, Option.getD_some, es]
  rcases ((e.scripted ans).matches x.act.tid x.act.op.args).1 with _ | _ | _ <;> rfl

/-- A step that runs a return closure. -/
theorem TState.stepAct_ret {env : Env V} {s : TState V} {id : Nat} {x : TAct V} {i : Nat} {e : Expectation V}
    (hx : s.acts[id]? = some x) (hpc : x.act.pc = .ret i)
    (he : ((s.fns x.fn).store.vec x.act.op.key)[i]? = some e) (ans : Answer V) :
    let o := (e.scripted ans).ret_call (env.cx x.act.tid) ((s.fns x.fn).mi.fn x.act.op.key) x.act.op.args s.world
    let es := ((s.fns x.fn).store.vec x.act.op.key).set i (e.restored o.2.1)
    s.stepAct env id x ans = some {
      fns := fun g => if g = x.fn then { s.fns x.fn with store := (s.fns x.fn).store.setVec x.act.op.key es } else s.fns g
      held := fun g => if g = x.fn then s.held x.fn else s.held g
      world := o.2.2
      acts := s.acts.set id { x with act := { x.act with pc := .leave (o.1.map some) } } } := by
  intro o es
  have hlt : i < ((s.fns x.fn).store.vec x.act.op.key).length := get_lt he
  have hid := get_lt hx
  have hv : ∀ es, ((s.fns x.fn).store.setVec x.act.op.key es).vec x.act.op.key = es := Store.vec_setVec he
  unfold TState.stepAct
  simp only [hpc, SPc.place, StaticFn.edit, he, SAct.step, SAct.inner, hv, List.getElem?_set_self hlt,
    Store.setVec_setVec, List.set_set]
  simp [hid, o, es]

theorem TState.stepAct_idle {env : Env V} {s : TState V} {id : Nat} {x : TAct V} (hx : s.acts[id]? = some x)
    (h : x.user s = false) (ans ans' : Answer V) : s.stepAct env id x ans = s.stepAct env id x ans' := by
  cases hp : x.act.pc.place with
  | none => simp only [TState.stepAct, hp]
  | some i =>
    cases he : ((s.fns x.fn).store.vec x.act.op.key)[i]? with
    | none => simp only [TState.stepAct, hp, StaticFn.edit, he]
    | some e =>
      cases hpc : x.act.pc with
      | scan j =>
        rw [hpc] at hp
        cases hp
        have hu : (!e.common.mpoison && e.common.matcher.enters x.act.tid) = false := by
          simpa only [TAct.user, hpc, he] using h
        have h1 := Expectation.matches_idle hu ans x.act.op.args
        have h2 := Expectation.matches_idle hu ans' x.act.op.args
        rw [TState.stepAct_scan hx hpc he, TState.stepAct_scan hx hpc he, h1.1, h1.2, h2.1, h2.2]
      | ret j =>
        rw [hpc] at hp
        cases hp
        have hu : ∀ f p, e.ret = .static f p → (!p && f.enters x.act.tid) = false := by
          intro f p hret
          simpa only [TAct.user, hpc, he, hret] using h
        have h1 := Expectation.ret_call_idle (env.cx x.act.tid) rfl hu ans ((s.fns x.fn).mi.fn x.act.op.key)
          x.act.op.args s.world
        have h2 := Expectation.ret_call_idle (env.cx x.act.tid) rfl hu ans' ((s.fns x.fn).mi.fn x.act.op.key)
          x.act.op.args s.world
        rw [TState.stepAct_ret hx hpc he, TState.stepAct_ret hx hpc he, h1.1, h1.2.1, h1.2.2, h2.1, h2.2.1, h2.2.2]
      | _ => rw [hpc] at hp; cases hp

/-! ## User code answers -/

theorem Matcher.scripted_asked {tid : Nat} {x : Matcher V} {args : List V} (h : x.enters tid = true)
    (ha : ∀ ps, x = .pred ps → ps.length = args.length) (r : Except Panic Bool) :
    (x.scripted r).matches tid args = r := by
  cases x with
  | always => cases h
  | func f => rfl
  | funcSt owner f =>
    have : tid = owner := by simpa [Matcher.enters] using h
    simp [Matcher.scripted, Matcher.matches, this]
  | pred ps =>
    have hne : ps.isEmpty = false := by simpa [Matcher.enters] using h
    have hlen := ha ps rfl
    have hargs : args.isEmpty = false := by
      cases ps with
      | nil => cases hne
      | cons p ps =>
        cases args with
        | nil => cases hlen
        | cons a as => rfl
    have := evalAll_scripted r ps args
    rw [hne, hargs] at this
    exact this

theorem StaticRfunc.scripted_asked {tid : Nat} {f : StaticRfunc V} (h : f.enters tid = true) (p : Panic)
    (nightly : Bool) (d : Option V) (args : List V) :
    ((f.scripted (.error p)).callMut nightly d tid args).out = .error p := by
  cases f with
  | dflt => cases h
  | expired => cases h
  | «mut» g => rfl
  | once g => rfl
  | mutSt o g =>
    have : tid = o := by simpa [StaticRfunc.enters] using h
    simp [StaticRfunc.scripted, StaticRfunc.callMut, this, Closure.call]
  | onceSt o g =>
    have : tid = o := by simpa [StaticRfunc.enters] using h
    simp [StaticRfunc.scripted, StaticRfunc.callMut, this]

namespace Props

/-- **C86**.  Only operations that execute user code depend on what user code comes to. -/
theorem C86_asks_user (env : UEnv V) (s : UState V) (p : Nat) (h : Asks env s p) : InUser s p := by
  obtain ⟨ans, ans', h⟩ := h
  simp only [UState.step] at h
  cases ho : s.order[p]? with
  | none => simp [ho] at h
  | some r =>
    cases r with
    | call i =>
      cases hx : s.calls[i]? with
      | none => simp [ho, hx] at h
      | some x =>
        cases hu : x.user s.objs.mem with
        | none =>
          have := UState.stepCall_idle (env := env) (i := i) hu ans ans'
          simp only [ho, hx, this, ne_eq, not_true_eq_false] at h
        | some a => exact ⟨_, .exp a, look_call ho hx, by simp [hu]⟩
    | op i =>
      cases hx : s.ops[i]? with
      | none => simp [ho, hx] at h
      | some x =>
        cases hu : x.user s.stats with
        | false =>
          have := TState.stepAct_idle (env := env.stat) (s := s.stats) (id := i) hx hu ans ans'
          simp only [ho, hx, UState.stepOp, this, ne_eq, not_true_eq_false] at h
        | true => exact ⟨_, .fn x.fn, look_op ho hx, by simp [hu]⟩

/-- The predicates of `with` are as many as the arguments. -/
def Fits (args : List V) (e : Expectation V) : Prop := ∀ ps, e.common.matcher = .pred ps → ps.length = args.length

theorem innermost_of {s : UState V} {p tid : Nat} {v : View} (hv : look s p = some v) (ht : v.tid = tid)
    (h : Innermost s p) : s.innermost p tid = true := by
  rw [UState.innermost_iff]
  intro q w hlt hw hf
  subst ht
  intro e
  have := h q v w hlt hv hw e.symm
  rw [this] at hf
  cases hf

/-- **C86**.  Calls of methods of objects that execute user code do depend on what it comes to. -/
theorem C86_call_asks (env : UEnv V) (s : UState V) (p i : Nat) (x : Act V) (ho : s.order[p]? = some (Ref.call i))
    (hx : s.calls[i]? = some x) (hu : InUser s p) (hin : Innermost s p) (hfit : ∀ a, Fits x.args (s.heap a).exp) :
    Asks env s p := by
  have hl := look_call ho hx
  have hin' := innermost_of hl rfl hin
  obtain ⟨v, a, hv, hu⟩ := hu
  rw [hl] at hv
  cases hv
  simp only [Option.map_eq_some_iff] at hu
  obtain ⟨a, hu, -⟩ := hu
  have hlt := get_lt hx
  simp only at hin'
  have hstep : ∀ ans, s.step env (.step p ans) = s.stepCall env i x ans := by
    intro ans
    simp only [UState.step, ho, hx, hin', if_true]
  cases hpc : x.pc with
  | matching b rest =>
    have he : (s.heap b).exp.common.matcher.enters x.tid = true := by
      simp only [Act.user, hpc] at hu
      split at hu
      · rename_i h; exact h
      · cases hu
    have hm : ∀ ans, ((s.objs.mem.scripted ans).heap b).exp.common.matcher.matches x.tid x.args = ans.verdict :=
      fun ans => Matcher.scripted_asked he (hfit b) ans.verdict
    have hc : ∀ v : Bool, (s.step env (.step p ⟨.ok v, .error .poisoned⟩)).calls[i]? =
        some { x with pc := if v then .check b rest else .scan rest } := by
      intro v
      rw [hstep]
      simp only [UState.stepCall, Act.step, hpc, hm]
      cases v <;> simp [hlt]
    refine ⟨⟨.ok true, .error .poisoned⟩, ⟨.ok false, .error .poisoned⟩, ?_⟩
    intro e
    have h1 := hc true
    rw [e, hc false] at h1
    simp at h1
  | run b =>
    simp only [Act.user, hpc] at hu
    cases hret : (s.objs.mem.heap b).exp.ret with
    | ref r => simp [hret] at hu
    | refMut r => simp [hret] at hu
    | static f q =>
      have he : f.enters x.tid = true := by
        simp only [hret] at hu
        split at hu
        · rename_i h; exact h
        · cases hu
      have hc : ∀ pn : Panic, (s.step env (.step p ⟨.ok true, .error pn⟩)).calls[i]? =
          some { x with pc := .done (.error pn) } := by
        intro pn
        rw [hstep]
        have e1 : ((s.objs.mem.scripted ⟨.ok true, .error pn⟩).heap b).exp.ret = .static (f.scripted (.error pn)) q := by
          change ((s.objs.mem.heap b).scripted _).exp.ret = _
          simp [Cell.scripted, hret, Ret.scripted]
        simp only [UState.stepCall, Act.step, hpc, e1, StaticRfunc.scripted_asked he]
        simp [hlt]
      refine ⟨⟨.ok true, .error .poisoned⟩, ⟨.ok true, .error .fragile⟩, ?_⟩
      intro e
      have h1 := hc .poisoned
      rw [e, hc .fragile] at h1
      simp at h1
  | _ => simp [Act.user, hpc] at hu

/-- **C86**.  So do operations on static methods, unless they are between two builder calls, where user code does not
answer to the mock. -/
theorem C86_op_asks (env : UEnv V) (s : UState V) (p i : Nat) (x : TAct V) (ho : s.order[p]? = some (Ref.op i))
    (hx : s.ops[i]? = some x) (hu : InUser s p) (hin : Innermost s p) (hb : ∀ j bs, x.act.pc ≠ .build j bs)
    (hfit : ∀ k, ∀ e ∈ (s.fns x.fn).store.vec k, Fits x.act.op.args e) : Asks env s p := by
  have hl := look_op ho hx
  have hin' := innermost_of hl rfl hin
  obtain ⟨v, a, hv, hu⟩ := hu
  rw [hl] at hv
  cases hv
  have hlt := get_lt hx
  simp only at hin'
  have hu : x.user s.stats = true := by
    simp only at hu
    split at hu
    · rename_i h; exact h
    · cases hu
  have hstep : ∀ ans, s.step env (.step p ans) = s.stepOp env i x ans := by
    intro ans
    simp only [UState.step, ho, hx, hin', if_true]
  cases hpc : x.act.pc with
  | scan j =>
    cases he : ((s.stats.fns x.fn).store.vec x.act.op.key)[j]? with
    | none => simp [TAct.user, hpc, he] at hu
    | some e =>
      simp only [TAct.user, hpc, he, Bool.and_eq_true, Bool.not_eq_true'] at hu
      have hm : ∀ ans, ((e.scripted ans).matches x.act.tid x.act.op.args).1 = ans.verdict := by
        intro ans
        have h1 : (e.scripted ans).common.mpoison = false := hu.1
        have h2 : (e.scripted ans).common.matcher.matches x.act.tid x.act.op.args = ans.verdict :=
          Matcher.scripted_asked hu.2 (hfit _ e (List.mem_of_getElem? he)) ans.verdict
        simp only [Expectation.matches, Common.matches, h1, h2, Bool.false_eq_true, if_false]
        cases ans.verdict <;> rfl
      have hc : ∀ v : Bool, (s.step env (.step p ⟨.ok v, .error .poisoned⟩)).ops[i]? =
          some { x with act := { x.act with pc := if v then .check j else .scan (j + 1) } } := by
        intro v
        rw [hstep]
        simp only [UState.stepOp, TState.stepAct_scan (s := s.stats) hx hpc he, hm]
        cases v <;> simp [UState.stats, hlt]
      refine ⟨⟨.ok true, .error .poisoned⟩, ⟨.ok false, .error .poisoned⟩, ?_⟩
      intro e
      have h1 := hc true
      rw [e, hc false] at h1
      simp at h1
  | ret j =>
    cases he : ((s.stats.fns x.fn).store.vec x.act.op.key)[j]? with
    | none => simp [TAct.user, hpc, he] at hu
    | some e =>
      simp only [TAct.user, hpc, he] at hu
      cases hret : e.ret with
      | ref r => simp [hret] at hu
      | refMut r => simp [hret] at hu
      | static f q =>
        simp only [hret, Bool.and_eq_true, Bool.not_eq_true'] at hu
        have hm : ∀ pn : Panic, ((e.scripted ⟨.ok true, .error pn⟩).ret_call (env.stat.cx x.act.tid)
            ((s.stats.fns x.fn).mi.fn x.act.op.key) x.act.op.args s.stats.world).1 = .error pn := by
          intro pn
          have e1 : (e.scripted ⟨.ok true, .error pn⟩).ret = .static (f.scripted (.error pn)) q := by
            simp [Expectation.scripted, hret, Ret.scripted]
          simp only [Expectation.ret_call, e1, hu.1, Bool.false_eq_true, if_false, Env.cx,
            StaticRfunc.scripted_asked hu.2]
        have hc : ∀ pn : Panic, (s.step env (.step p ⟨.ok true, .error pn⟩)).ops[i]? =
            some { x with act := { x.act with pc := .leave (.error pn) } } := by
          intro pn
          rw [hstep]
          simp only [UState.stepOp, TState.stepAct_ret (s := s.stats) hx hpc he, hm]
          simp [UState.stats, hlt, Except.map]
        refine ⟨⟨.ok true, .error .poisoned⟩, ⟨.ok true, .error .fragile⟩, ?_⟩
        intro e
        have h1 := hc .poisoned
        rw [e, hc .fragile] at h1
        simp at h1
  | build j bs => exact absurd hpc (hb j bs)
  | _ => simp [TAct.user, hpc] at hu

end Props

namespace MixedExamples

open Props StaticNestedExamples

/-- As `down`, but the closure of the object has not begun anything. -/
def inObject : List (USched Nat) :=
  .op 1 0 (.expect 0 [anyClosure]) :: moves 0 5 ++ .call 0 1 [] :: moves 1 9

/-- As `down`, but the closure of the static method has not begun anything. -/
def inStatic : List (USched Nat) := inObject ++ .op 1 0 (.call 0 [3]) :: moves 2 7

theorem last_innermost {s : UState Nat} {p : Nat} (h : s.order.length = p + 1) : Innermost s p := by
  intro q v w hlt _ hw
  unfold look at hw
  rw [List.getElem?_eq_none (by omega)] at hw
  cases hw

/-- C86_call_asks. -/
example : Asks bothEnv (both inObject) 1 :=
  C86_call_asks bothEnv _ 1 0 _ rfl rfl ⟨_, .exp 0, rfl, rfl⟩ (last_innermost rfl) (by
    intro a ps h
    match a with
    | 0 => cases h
    | 1 => cases h
    | _ + 2 => cases h)

/-- C86_op_asks. -/
example : Asks bothEnv (both inStatic) 2 :=
  C86_op_asks bothEnv _ 2 1 _ rfl rfl ⟨_, .fn 0, rfl, rfl⟩ (last_innermost rfl) (by
    intro j bs h
    cases h) (by
    intro k e he ps h
    have := List.mem_singleton.1 he
    subst this
    cases h)

/-- C86_asks_user: the last call of `down` has not entered user code, so nothing is asked. -/
example : ¬ InUser (both down) 3 ∧ ¬ Asks bothEnv (both down) 3 := by
  have h : ¬ InUser (both down) 3 := by
    rintro ⟨v, a, hv, hu⟩
    have := look_short hv
    rw [down_short] at this
    simp only [List.getElem?_cons_succ, List.getElem?_cons_zero, Option.some.injEq, Prod.mk.injEq] at this
    rw [hu] at this
    cases this.2.2
  exact ⟨h, fun ha => h (C86_asks_user bothEnv _ 3 ha)⟩

end MixedExamples

end Mockall
