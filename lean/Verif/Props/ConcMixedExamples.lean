import Verif.Props.ConcMixed
import Verif.Props.ConcNestedLive

/-! # Objects and static methods used together (C86): the older machines, and examples -/

namespace Mockall

open Spec.Mixed

variable {V : Type}

/-! ## The older machines are parts of this one -/

theorem order_calls {s : UState V} (h : s.order = (List.range s.calls.length).map Ref.call) (p : Nat) :
    s.order[p]? = if p < s.calls.length then some (Ref.call p) else none := by
  rw [h, List.getElem?_map]
  split
  · rename_i hlt
    rw [List.getElem?_range hlt]; rfl
  · rename_i hlt
    rw [List.getElem?_eq_none (by simp only [List.length_range]; omega)]; rfl

theorem order_ops {s : UState V} (h : s.order = (List.range s.ops.length).map Ref.op) (p : Nat) :
    s.order[p]? = if p < s.ops.length then some (Ref.op p) else none := by
  rw [h, List.getElem?_map]
  split
  · rename_i hlt
    rw [List.getElem?_range hlt]; rfl
  · rename_i hlt
    rw [List.getElem?_eq_none (by simp only [List.length_range]; omega)]; rfl

theorem look_calls {s : UState V} (h : s.order = (List.range s.calls.length).map Ref.call) (p : Nat) :
    look s p = s.calls[p]?.map fun x => ⟨x.tid, x.finished, (x.user s.objs.mem).map .exp⟩ := by
  unfold look
  rw [order_calls h]
  split
  · rfl
  · rename_i hlt
    rw [List.getElem?_eq_none (by omega)]
    rfl

theorem look_ops {s : UState V} (h : s.order = (List.range s.ops.length).map Ref.op) (p : Nat) :
    look s p = s.ops[p]?.map fun x => ⟨x.act.tid, x.finished, if x.user s.stats then some (.fn x.fn) else none⟩ := by
  unfold look
  rw [order_ops h]
  split
  · rfl
  · rename_i hlt
    rw [List.getElem?_eq_none (by omega)]
    rfl

theorem calls_step {env : UEnv V} {s : UState V} (h : s.order = (List.range s.calls.length).map Ref.call)
    (d : NSched V) : ∃ u : USched V, (s.step env u).objs = s.objs.nstep env.obj d ∧
      (s.step env u).order = (List.range (s.step env u).calls.length).map Ref.call := by
  cases d with
  | start meth tid args =>
    refine ⟨.call meth tid args, ?_⟩
    have hm : s.mayStart tid = s.objs.mayCall tid := by
      rw [Bool.eq_iff_iff, UState.mayStart_iff, CState.mayCall_iff]
      constructor
      · intro hx x hmem
        obtain ⟨i, hi⟩ := List.mem_iff_getElem?.1 hmem
        have := hx i _ (by rw [look_calls h, show s.calls[i]? = some x from hi]; rfl)
        simp only at this
        cases hf : x.finished with
        | true => exact .inl rfl
        | false =>
          by_cases ht : x.tid = tid
          · obtain ⟨b, hb⟩ := this hf ht
            cases hu : x.user s.objs.mem with
            | none => simp [hu] at hb
            | some a => exact .inr (.inr ⟨a, rfl⟩)
          · exact .inr (.inl ht)
      · intro hx q v hv hf ht
        rw [look_calls h] at hv
        cases hq : s.calls[q]? with
        | none => simp [hq] at hv
        | some x =>
          simp only [hq, Option.map_some, Option.some.injEq] at hv
          subst hv
          rcases hx x (List.mem_of_getElem? hq) with h1 | h1 | ⟨a, h1⟩
          · rw [show x.finished = false from hf] at h1; cases h1
          · exact absurd ht h1
          · exact ⟨.exp a, by simp [h1]⟩
    simp only [UState.step, CState.nstep, hm]
    split
    · refine ⟨rfl, ?_⟩
      simp only [List.length_append, List.length_cons, List.length_nil, Nat.zero_add, List.range_succ, List.map_append,
        List.map_cons, List.map_nil, h]
    · exact ⟨rfl, h⟩
  | step id ans =>
    refine ⟨.step id ans, ?_⟩
    simp only [UState.step, CState.nstep, order_calls h]
    by_cases hlt : id < s.calls.length
    · rw [if_pos hlt]
      have hx : s.calls[id]? = some s.calls[id] := List.getElem?_eq_getElem hlt
      have hx' : s.objs.acts[id]? = some s.calls[id] := hx
      simp only [hx, hx']
      have hin : s.innermost id s.calls[id].tid = s.objs.innermost id s.calls[id].tid := by
        rw [Bool.eq_iff_iff, UState.innermost_iff, CState.innermost_iff]
        constructor
        · intro hh j x hj lt
          have := hh j _ lt (by rw [look_calls h, show s.calls[j]? = some x from hj]; rfl)
          cases hf : x.finished with
          | true => exact .inl rfl
          | false => exact .inr (this hf)
        · intro hh q v lt hv hf
          rw [look_calls h] at hv
          cases hq : s.calls[q]? with
          | none => simp [hq] at hv
          | some x =>
            simp only [hq, Option.map_some, Option.some.injEq] at hv
            subst hv
            rcases hh q x hq lt with h1 | h1
            · rw [show x.finished = false from hf] at h1; cases h1
            · exact h1
      rw [hin]
      split
      · unfold UState.stepCall
        split <;> rename_i he <;> rw [he]
        · exact ⟨rfl, h⟩
        · exact ⟨rfl, by simpa using h⟩
      · exact ⟨rfl, h⟩
    · rw [if_neg hlt]
      have hx' : s.objs.acts[id]? = none := List.getElem?_eq_none (by simp only [UState.objs]; omega)
      rw [hx']
      exact ⟨rfl, h⟩

theorem ops_step {env : UEnv V} {s : UState V} (h : s.order = (List.range s.ops.length).map Ref.op)
    (d : TSched V) : ∃ u : USched V, (s.step env u).stats = s.stats.step env.stat d ∧
      (s.step env u).order = (List.range (s.step env u).ops.length).map Ref.op := by
  cases d with
  | start tid f op =>
    refine ⟨.op tid f op, ?_⟩
    have hm : s.mayStart tid = s.stats.mayStart tid := by
      rw [Bool.eq_iff_iff, UState.mayStart_iff, TState.mayStart_iff]
      constructor
      · intro hx i x hi hf ht
        obtain ⟨b, hb⟩ := hx i _ (by rw [look_ops h, show s.ops[i]? = some x from hi]; rfl) hf ht
        simp only at hb
        split at hb
        · assumption
        · cases hb
      · intro hx q v hv hf ht
        rw [look_ops h] at hv
        cases hq : s.ops[q]? with
        | none => simp [hq] at hv
        | some x =>
          simp only [hq, Option.map_some, Option.some.injEq] at hv
          subst hv
          exact ⟨.fn x.fn, by simp only [hx q x hq hf ht, if_true]⟩
    simp only [UState.step, TState.step, hm]
    split
    · refine ⟨rfl, ?_⟩
      simp only [List.length_append, List.length_cons, List.length_nil, Nat.zero_add, List.range_succ, List.map_append,
        List.map_cons, List.map_nil, h]
    · exact ⟨rfl, h⟩
  | step id ans =>
    refine ⟨.step id ans, ?_⟩
    simp only [UState.step, TState.step, order_ops h]
    by_cases hlt : id < s.ops.length
    · rw [if_pos hlt]
      have hx : s.ops[id]? = some s.ops[id] := List.getElem?_eq_getElem hlt
      have hx' : s.stats.acts[id]? = some s.ops[id] := hx
      simp only [hx, hx']
      have hin : s.innermost id s.ops[id].act.tid = s.stats.innermost id s.ops[id].act.tid := by
        rw [Bool.eq_iff_iff, UState.innermost_iff, TState.innermost_iff]
        constructor
        · intro hh j x lt hj hf
          exact hh j _ lt (by rw [look_ops h, show s.ops[j]? = some x from hj]; rfl) hf
        · intro hh q v lt hv hf
          rw [look_ops h] at hv
          cases hq : s.ops[q]? with
          | none => simp [hq] at hv
          | some x =>
            simp only [hq, Option.map_some, Option.some.injEq] at hv
            subst hv
            exact hh q x lt hq hf
      rw [hin]
      split
      · unfold UState.stepOp
        split <;> rename_i he <;> rw [he]
        · exact ⟨rfl, h⟩
        · rename_i t
          obtain ⟨pc, hacts, -⟩ := TState.stepAct_shape hx' he
          exact ⟨rfl, by simp only [hacts, List.length_set]; exact h⟩
      · exact ⟨rfl, h⟩
    · rw [if_neg hlt]
      have hx' : s.stats.acts[id]? = none := List.getElem?_eq_none (by simp only [UState.stats]; omega)
      rw [hx']
      exact ⟨rfl, h⟩

namespace Props

/-- **C86**.  Objects alone, as in C75, are a part of this. -/
theorem C86_includes_objects (env : UEnv V) (heap : Nat → Cell V) (fns : Nat → StaticFn V) (w : World V)
    (sch : List (NSched V)) : ∃ usch, ((UState.rest heap fns w).run env usch).objs =
      (⟨⟨heap, w.seqs, w.runs⟩, []⟩ : CState V).nrun env.obj sch := by
  have : ∀ (sch : List (NSched V)) (s : UState V), s.order = (List.range s.calls.length).map Ref.call →
      ∃ usch, (s.run env usch).objs = s.objs.nrun env.obj sch := by
    intro sch
    induction sch with
    | nil => exact fun s _ => ⟨[], rfl⟩
    | cons d sch ih =>
      intro s h
      obtain ⟨u, hu, ho⟩ := calls_step (env := env) h d
      obtain ⟨us, hus⟩ := ih _ ho
      exact ⟨u :: us, by simpa [UState.run, CState.nrun, hu] using hus⟩
  exact this sch (UState.rest heap fns w) rfl

/-- **C86**.  Static methods alone, as in C78, are a part of this. -/
theorem C86_includes_static (env : UEnv V) (heap : Nat → Cell V) (fns : Nat → StaticFn V) (w : World V)
    (sch : List (TSched V)) : ∃ usch, ((UState.rest heap fns w).run env usch).stats =
      (TState.rest fns w).run env.stat sch := by
  have : ∀ (sch : List (TSched V)) (s : UState V), s.order = (List.range s.ops.length).map Ref.op →
      ∃ usch, (s.run env usch).stats = s.stats.run env.stat sch := by
    intro sch
    induction sch with
    | nil => exact fun s _ => ⟨[], rfl⟩
    | cons d sch ih =>
      intro s h
      obtain ⟨u, hu, ho⟩ := ops_step (env := env) h d
      obtain ⟨us, hus⟩ := ih _ ho
      exact ⟨u :: us, by simpa [UState.run, TState.run, hu] using hus⟩
  exact this sch (UState.rest heap fns w) rfl

/-- **C86**.  Re-entry: if user code of an operation has begun, directly or through other mocks, one that needs a lock
which the first one holds, then neither is ever over. -/
theorem C86_reentry (env : UEnv V) (s : UState V) (h : Reached env s) (p q : Nat) (v w : View)
    (hp : look s p = some v) (hq : look s q = some w) (lt : p < q) (thread : v.tid = w.tid) (back : Waits s q p)
    (sch : List (USched V)) : Pending (s.run env sch) p ∧ Pending (s.run env sch) q := by
  have hpend : Pending s p ∧ Pending s q := by
    obtain ⟨m0, h⟩ := h.inv
    exact (h.waits_pending back).symm
  obtain ⟨⟨v', hv, fv⟩, ⟨w', hw, fw⟩⟩ := hpend
  rw [hp] at hv; cases hv
  rw [hq] at hw; cases hw
  have hd : ∀ n, n = p ∨ n = q → ∃ m, (m = p ∨ m = q) ∧ Waits s n m := by
    rintro n (rfl | rfl)
    · exact ⟨q, .inr rfl, .inner v w hp hq lt thread fv fw⟩
    · exact ⟨p, .inl rfl, back⟩
  exact ⟨C86_deadlock env s h (fun n => n = p ∨ n = q) hd sch p (.inl rfl),
    C86_deadlock env s h (fun n => n = p ∨ n = q) hd sch q (.inr rfl)⟩

end Props

/-! ## Examples -/

namespace MixedExamples

open Props StaticNestedExamples

/-- One object with methods 0 and 1, each with an expectation that has a closure. -/
def twoFns : List (List (List (Build Nat))) := [[[anyClosure]], [[anyClosure]]]

/-- The objects, as in C75, and static methods, as in C78. -/
def bothEnv : UEnv Nat := ⟨(demoEnv twoFns).vec, (demoEnv twoFns).info, false, toString, id⟩

/-- Nothing has been called, and the static methods have no expectations. -/
def bothRest : UState Nat := UState.rest (demoMem twoFns).heap alikeFns startWorld

theorem bothFresh : Fresh (demoMem twoFns).heap := by
  intro a
  refine ⟨rfl, rfl, ?_⟩
  match a with
  | 0 => exact Nat.zero_le _
  | 1 => exact Nat.zero_le _
  | _ + 2 => exact Nat.zero_le _

/-- The state after a schedule. -/
def both (sch : List (USched Nat)) : UState Nat := bothRest.run bothEnv sch

theorem both_reached (sch : List (USched Nat)) : Reached bothEnv (both sch) := ⟨_, _, _, _, bothFresh, rfl⟩

/-- Number `p` makes `n` steps. -/
def moves (p n : Nat) : List (USched Nat) := List.replicate n (.step p five)

/-- Thread 1 adds an expectation with a closure to static method 0 (number 0) and calls method 0 of the object (number
1), whose closure calls the static method (number 2), whose closure calls method 1 of the object (number 3). -/
def down : List (USched Nat) :=
  .op 1 0 (.expect 0 [anyClosure]) :: moves 0 5 ++ .call 0 1 [] :: moves 1 9 ++ .op 1 0 (.call 0 [3]) :: moves 2 7 ++
    [.call 1 1 []]

/-- The operations, in short: thread, is it over, whose user code. -/
def short (s : UState Nat) : List (Option (Nat × Bool × Option Res)) :=
  s.order.map fun r => (s.view r).map fun v => (v.tid, v.over, v.user)

/-- The stack of thread 1: each is in user code of the next outer one. -/
theorem down_short : short (both down) =
    [some (1, true, none), some (1, false, some (.exp 0)), some (1, false, some (.fn 0)), some (1, false, none)] := by
  rfl

/-- All come to their ends, and are counted: C86_count, C86_verdict, C86_static_count, C86_ceiling. -/
example : let s := both (down ++ moves 3 10 ++ moves 2 3 ++ moves 1 1)
    (short s).map (Option.map fun t => t.2.1) = [some true, some true, some true, some true] ∧
    (s.heap 0).exp.common.times.count = 1 ∧ (s.heap 1).exp.common.times.count = 1 ∧ s.held 0 = none ∧
    ((s.fns 0).store.vec 0).map (fun e => (e.gid, e.common.times.count)) = [(0, 1)] ∧
    s.calls.map (·.via) = [some 0, some 1] := by
  refine ⟨?_, ?_, ?_, ?_, ?_, ?_⟩ <;> rfl

/-- `look`, from the summary. -/
theorem look_short {s : UState Nat} {p : Nat} {v : View} (h : look s p = some v) :
    (short s)[p]? = some (some (v.tid, v.over, v.user)) := by
  unfold look at h
  unfold short
  rw [List.getElem?_map]
  cases ho : s.order[p]? with
  | none => simp [ho] at h
  | some r =>
    simp only [ho, Option.bind_some] at h
    simp [h]

/-- C86_progress, C86_completes: this is a state in which user code has gone down. -/
theorem down_descends : Descends bothEnv (fun | .exp a => 2 - 2 * a | .fn _ => 1) (both down) := by
  intro p q v w r a b lt hp hq ht fv fw ha ho hb
  have h1 := look_short hp
  have h2 := look_short hq
  rw [down_short] at h1 h2
  have hord : (both down).order = [.op 0, .call 0, .op 1, .call 1] := rfl
  rw [hord] at ho
  match p, q, lt with
  | 0, _, _ => simp only [List.getElem?_cons_zero, Option.some.injEq, Prod.mk.injEq] at h1; rw [fv] at h1; cases h1.2.1
  | 1, 2, _ =>
    simp only [List.getElem?_cons_succ, List.getElem?_cons_zero, Option.some.injEq, Prod.mk.injEq] at h1 ho
    rw [ha] at h1
    cases h1.2.2
    cases ho
    cases hb with
    | op _ x hx => exact Nat.one_lt_two
  | 1, 3, _ =>
    simp only [List.getElem?_cons_succ, List.getElem?_cons_zero, Option.some.injEq, Prod.mk.injEq] at h1 ho
    rw [ha] at h1
    cases h1.2.2
    cases ho
    cases hb with
    | call _ b x hx hb =>
      cases hx
      have : b = 1 := by simpa [bothEnv, demoEnv, twoFns, Act.start] using hb
      subst this
      exact Nat.zero_lt_two
  | 2, 3, _ =>
    simp only [List.getElem?_cons_succ, List.getElem?_cons_zero, Option.some.injEq, Prod.mk.injEq] at h1 ho
    rw [ha] at h1
    cases h1.2.2
    cases ho
    cases hb with
    | call _ b x hx hb =>
      cases hx
      have : b = 1 := by simpa [bothEnv, demoEnv, twoFns, Act.start] using hb
      subst this
      exact Nat.one_pos
  | 1, q + 4, _ => simp at ho
  | 2, q + 4, _ => simp at ho
  | 3, q + 4, _ => simp at ho
  | p + 4, _, _ => simp at h1

example : Pending (both down) 1 := ⟨_, rfl, rfl⟩

/-- Thread 1 is in the closure of expectation 0 of the object (number 1), thread 2 in that of the static method (number
2), and each calls the other (numbers 3 and 4). -/
def across : List (USched Nat) :=
  .op 1 0 (.expect 0 [anyClosure]) :: moves 0 5 ++ .call 0 1 [] :: moves 1 9 ++ .op 2 0 (.call 0 [3]) :: moves 2 7 ++
    .op 1 0 (.call 0 [4]) :: .call 0 2 [] :: moves 4 8

/-- C86_cross, C86_deadlock: none of them is ever over. -/
example (sch : List (USched Nat)) : ∀ n ∈ [1, 3, 2, 4], Pending ((both across).run bothEnv sch) n :=
  C86_cross bothEnv (both across) (both_reached _) 1 3 2 4 0 0 1 2 1 _ _ _ _ rfl rfl rfl rfl rfl (by decide) rfl
    (.inr (.inl rfl)) rfl rfl rfl rfl (by decide) rfl rfl rfl rfl sch

/-- Thread 1 is in the closure of expectation 0 of the object (number 1), which calls the static method (number 2),
whose closure calls the method of the object again (number 3). -/
def around : List (USched Nat) :=
  .op 1 0 (.expect 0 [anyClosure]) :: moves 0 5 ++ .call 0 1 [] :: moves 1 9 ++ .op 1 0 (.call 0 [3]) :: moves 2 7 ++
    .call 0 1 [] :: moves 3 8

/-- C86_reentry: none of them is ever over. -/
example (sch : List (USched Nat)) :
    Pending ((both around).run bothEnv sch) 1 ∧ Pending ((both around).run bothEnv sch) 3 :=
  C86_reentry bothEnv (both around) (both_reached _) 1 3 _ _ rfl rfl (by decide) rfl
    (.closure 1 0 0 _ rfl rfl rfl rfl rfl) sch

/-- C86_exclusive: a state in which an operation is in a closure of an object and another in a static method. -/
example : ∃ (x : Act Nat) (y : TAct Nat), (both across).calls[0]? = some x ∧ x.pc = .run 0 ∧
    (both across).ops[1]? = some y ∧ y.user (both across).stats = true := ⟨_, _, rfl, rfl, rfl, rfl⟩

end MixedExamples

end Mockall
