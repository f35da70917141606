import Verif.Lemmas.ConcStaticUnwind

/-! # Static methods used while threads unwind (C88)

As C40, but threads that are panicking may drop a `Context`.  This is not atomic (`C40_unwinding_refuted`), but it is the
same as two operations. -/

namespace Mockall.Props

open Spec.Unwind

variable {V : Type}

/-- **C88**: any number of threads use a static method, and some of them drop a `Context` of it while they are panicking,
under any schedule and from any state of the program.  Each operation takes effect at one moment, except that
such a drop takes effect at two: it clears the poison flag, and later, if the flag is not set again, it removes
the expectations.  That is, there is an order `lin` of effects such that the sequential program that
consists of them
* has every operation that is over, with the outcome it had;
* has the first effect of a drop by a panicking thread before the second, and no such effect of other operations;
* has the effects of an operation that was over before those of an operation that began afterwards;
* ends in the same state, if all operations are over. -/
theorem C88_two_effects (env : Env V) (s0 : Sys V) (f : Nat) (sf : StaticFn V) (hf : s0.statics[f]? = some sf)
    (sch : List (SSched V)) :
    let s := (atRest sf s0.world).run env sch
    ∃ lin : List Ev, lin.Nodup ∧ (∀ x ∈ lin, x.id < s.acts.length) ∧
      (∀ (id : Nat) (act : SAct V) (o : Obs V), s.acts[id]? = some act → act.pc = .done o →
        ∃ n : Nat, lin[n]? = some (.main id) ∧ (program f s lin)[n]? = some (mainPart f act) ∧
          (Part.run env (program f s lin) s0).1[n]? = some o) ∧
      (∀ (id : Nat) (act : SAct V), s.acts[id]? = some act →
        (.clear id ∈ lin → act.op = .dropPanicking) ∧
        (act.op = .dropPanicking → .main id ∈ lin → Before lin (.clear id) (.main id))) ∧
      (∀ (pre post : List (SSched V)) (a : Nat) (act : SAct V), sch = pre ++ post →
        ((atRest sf s0.world).run env pre).acts[a]? = some act → act.finished = true →
        ∀ x ∈ lin, ∀ y ∈ lin, x.id = a → ((atRest sf s0.world).run env pre).acts.length ≤ y.id → Before lin x y) ∧
      ((∀ act ∈ s.acts, act.finished = true) →
        (Part.run env (program f s lin) s0).2 = { s0 with statics := s0.statics.set f s.sf, world := s.world }) := by
  intro s
  obtain ⟨lin, hinv, hord⟩ := pinv_run (env := env) hf sch
  change PInv env s0 f s lin at hinv
  refine ⟨lin, hinv.nodup, hinv.range, ?_, ?_, hord, ?_⟩
  · intro id act o hid hpc
    have hmem : Ev.main id ∈ lin := (hinv.main id act hid).mpr (by rw [hpc]; rfl)
    obtain ⟨n, hn⟩ := List.getElem?_of_mem hmem
    have hnot : s.held ≠ some id := by
      intro e
      have := (hinv.holder id act hid).mpr e
      rw [hpc] at this
      simp [SPc.inside, SPc.working] at this
    refine ⟨n, hn, ?_, ?_⟩
    · have hfm : program f s lin = lin.map fun x => (part f s x).getD (.clear f) := by
        have := hinv.range
        clear hmem hn hinv hord
        induction lin with
        | nil => rfl
        | cons x l ih =>
          have hx := this x (by simp)
          have hsome : part f s x = some ((part f s x).getD (.clear f)) := by
            cases x with
            | clear j => simp only [part, List.getElem?_eq_getElem (show j < s.acts.length from hx)]; rfl
            | main j => simp only [part, List.getElem?_eq_getElem (show j < s.acts.length from hx)]; rfl
          simp only [program, List.filterMap_cons, List.map_cons]
          rw [hsome]
          simp only [Option.getD_some, List.cons.injEq, true_and]
          exact ih fun i hi => this i (by simp [hi])
      rw [hfm, List.getElem?_map, hn]
      simp [part, hid]
    · have := congrArg (·[n]?) hinv.obs
      simp only [List.getElem?_map, hn, Option.map_some, foretold, predicted, hid, hnot, if_false, SAct.outcome,
        hpc] at this
      rcases hx : (Part.run env (program f s lin) s0).1[n]? with _ | x
      · rw [hx] at this; simp at this
      · rw [hx] at this
        simp at this
        rw [this]
  · intro id act hid
    refine ⟨fun hc => ((hinv.cleared id act hid).mp hc).1, ?_⟩
    intro hop hm
    have hc : Ev.clear id ∈ lin := by
      refine (hinv.cleared id act hid).mpr ⟨hop, ?_⟩
      intro e
      have := (hinv.main id act hid).mp hm
      rw [e] at this
      cases this
    rcases before_or hc hm (by simp) with hb | hb
    · exact hb
    · exact absurd ⟨rfl, rfl⟩ (pairwise_before hinv.pair hb id)
  · intro hall
    rw [hinv.state]
    have hfree : s.held = none := by
      rcases hh : s.held with _ | j
      · rfl
      · exfalso
        have hj := (hinv.held j hh).1
        have hget : s.acts[j]? = some s.acts[j] := List.getElem?_eq_getElem hj
        have hin := (hinv.holder j _ hget).mpr hh
        have hfin := hall _ (List.getElem_mem hj)
        generalize s.acts[j] = act at hin hfin
        obtain ⟨tid, op, pc⟩ := act
        cases pc <;> simp [SPc.inside, SPc.working, SAct.finished] at hin hfin
    simp [settled, hfree, embed]

/-- **C88**, without a race: the two effects, one directly after the other, are the drop of a `Context` by a panicking
thread in a sequential program. -/
theorem C88_adjacent (env : Env V) (s : Sys V) (f : Nat) (hf : f < s.statics.length) :
    Part.run env [.clear f, .drop f] s =
      ([.unit (.ok ()) false, (s.step env (.sdrop f true)).1], (s.step env (.sdrop f true)).2) := by
  have hget : s.statics[f]? = some s.statics[f] := List.getElem?_eq_getElem hf
  simp only [Part.run, Part.step, hget]
  rw [List.getElem?_set_self hf]
  simp only [Bool.false_eq_true, if_false, Sys.step, hget]
  rw [List.getElem?_set_self hf]
  simp only [StaticFn.dropContext, List.set_set, if_true]

/-- **C88**, progress: while some operation is not over, some operation that is not over can make a step. -/
theorem C88_progress (env : Env V) (s0 : Sys V) (f : Nat) (sf : StaticFn V) (hf : s0.statics[f]? = some sf)
    (sch : List (SSched V)) :
    let s := (atRest sf s0.world).run env sch
    (∃ act ∈ s.acts, act.finished = false) →
    ∃ (id : Nat) (act : SAct V), s.acts[id]? = some act ∧ act.finished = false ∧ (act.step env id s).isSome = true := by
  intro s ⟨act, hact, hfin⟩
  obtain ⟨lin, hinv, _⟩ := pinv_run (env := env) hf sch
  change PInv env s0 f s lin at hinv
  have hcan : ∀ (id : Nat) (act : SAct V), act.finished = false → (act.pc = .wait ∨ act.pc = .tryWait → s.held = none) →
      (act.step env id s).isSome = true := by
    intro id act hfin hw
    obtain ⟨tid, op, pc⟩ := act
    cases pc with
    | wait =>
      simp only [SAct.step, hw (.inl rfl)]
      split <;> rfl
    | tryWait =>
      simp only [SAct.step, hw (.inr rfl)]
      split <;> rfl
    | done o => simp [SAct.finished] at hfin
    | dropping p es =>
      cases es with
      | nil => rfl
      | cons e es =>
        simp only [SAct.step]
        repeat' split
        all_goals rfl
    | _ => rfl
  rcases hh : s.held with _ | j
  · obtain ⟨id, hid⟩ := List.getElem?_of_mem hact
    exact ⟨id, act, hid, hfin, hcan id act hfin fun _ => hh⟩
  · have hj := (hinv.held j hh).1
    have hget : s.acts[j]? = some s.acts[j] := List.getElem?_eq_getElem hj
    have hin := (hinv.holder j _ hget).mpr hh
    generalize s.acts[j] = a at hin hget
    refine ⟨j, a, hget, ?_, hcan j a ?_ ?_⟩
    · obtain ⟨tid, op, pc⟩ := a
      cases pc <;> first | rfl | simp [SPc.inside, SPc.working] at hin
    · obtain ⟨tid, op, pc⟩ := a
      cases pc <;> first | rfl | simp [SPc.inside, SPc.working] at hin
    · rintro (e | e) <;> (rw [e] at hin; cases hin)

/-- **C88**, no second panic: whatever the other threads do, the drop of a `Context` by a panicking thread returns
normally.  So it does not abort the program. -/
theorem C88_no_abort (env : Env V) (sf : StaticFn V) (w : World V) (sch : List (SSched V)) :
    ∀ act ∈ ((atRest sf w).run env sch).acts, act.op = .dropPanicking →
      ∀ o, act.pc = .done o → o = .unit (.ok ()) false := by
  intro act hact hop o ho
  have := quiet_run env sch (s := atRest sf w) (by simp [atRest]) act hact hop
  rw [ho] at this
  exact this

/-! ## The race of `C40_unwinding_refuted` -/

section Examples

/-- The moments at which the call of thread 1 and the drop by thread 2 take effect. -/
def unwindOrder : List Ev := [.clear 1, .main 0, .main 1]

/-- The call takes effect between the two effects of the drop.  The drop finds the mutex poisoned again; the outcomes
and the poison flag are those of the race. -/
example : unwound.map results = some [some (.value (.error (.user "boom"))), some (.unit (.ok ()) false)] ∧
    (unwound.map fun s => (Part.run fooEnv (program 0 s unwindOrder) angry).1) =
      some [.unit (.ok ()) false, .value (.error (.user "boom")), .unit (.ok ()) false] ∧
    (unwound.map fun s => (Part.run fooEnv (program 0 s unwindOrder) angry).2.statics.map (·.poison)) =
      unwound.map fun s => [s.sf.poison] := by
  refine ⟨?_, ?_, ?_⟩ <;> rfl

/-- The method `foo`, after a call that panicked, whose mutex is poisoned. -/
def upset : Sys Nat := (Sys.run fooEnv [.scall 0 0 1 [3]] angry).2

/-- Thread 2, which is panicking, drops its `Context` while thread 1 calls: it clears the flag, so thread 1 gets the mutex,
but the lock of the closure is poisoned too, and thread 1 poisons the mutex again.  The drop then does nothing, and
thread 3 finds the mutex poisoned. -/
def clearRace : List (SSched Nat) :=
  [.start 2 .dropPanicking, .start 1 (.call 0 [3]), .step 0, .step 1, .step 0] ++ List.replicate 7 (.step 1) ++
    [.start 3 (.expect 0 [.returnConst 7]), .step 0, .step 2, .step 1] ++ List.replicate 9 (.step 0) ++
      List.replicate 9 (.step 2) ++ [.step 1]

/-- Which operations are over, and how. -/
def clearResults : Option (List (Option (Obs Nat))) :=
  (upset.statics[0]?).map fun sf => results ((atRest sf upset.world).run fooEnv clearRace)

example : (upset.statics.map (·.poison)) = [true] ∧
    clearResults = some [some (.unit (.ok ()) false), some (.value (.error .poisoned)),
      some (.unit (.error .poisoned) false)] := by
  refine ⟨?_, ?_⟩ <;> rfl

end Examples

end Mockall.Props
