import Verif.Lemmas.Destructors

/-! # Single threaded closures must be destroyed where they were made (C73, C26)

Programs whose operations are executed by given threads, with the destructors of `Fragile`
(`Rt/Destructors.lean`).  `Away t kind used chain` (`Spec/Destructors.lean`) reads off the builder calls
made on an expectation that it still holds a single threaded closure of a thread other than `t`. -/

set_option linter.unusedSimpArgs false

namespace Mockall.Props

open Spec

variable {V : Type}

/-! ## Calls of `return_once_st` expectations -/

theorem Common.call_unmoved (func desc : String) (c : Common V) (w : Seqs) :
    (c.call func desc w).1 ≠ .error .fragileMove := by
  intro h
  unfold Common.call at h
  have ha : ∀ n, addOne n ≠ .error .fragileMove := by intro n; unfold addOne; split <;> simp
  have hs : ∀ n, subOne n ≠ .error .fragileMove := by intro n; unfold subOne; split <;> simp
  rcases ht : c.times.call with ⟨p | m | ⟨⟩, t⟩
  · rw [ht] at h
    simp only [Except.error.injEq] at h
    subst h
    unfold Times.call at ht
    rcases h1 : addOne c.times.count with p | n
    · rw [h1] at ht; simp at ht; exact ha _ (by rw [h1, ht.1])
    · simp only [h1] at ht
      split at ht
      · split at ht
        · simp at ht
        · rcases h2 : subOne c.times.range.end_ with p | k
          · rw [h2] at ht; simp at ht; exact hs _ (by rw [h2, ht.1])
          · rw [h2] at ht; simp at ht
      · simp at ht
  · rw [ht] at h
    simp only [Except.error.injEq] at h
    split at h <;> simp at h
  · rw [ht] at h
    simp only [Common.verifySequence, Common.satisfySequence, Seqs.verify, Seqs.satisfy] at h
    rcases hsh : c.seqHandle with _ | sh
    · simp [hsh] at h
    · simp only [hsh] at h
      by_cases h1 : sh.seq = (w sh.sid).level
      · have h2 : (w sh.sid).level = sh.seq := h1.symm
        rw [if_pos h1, if_pos h2] at h
        simp only at h
        split at h <;> simp at h
      · rw [if_neg h1] at h
        simp at h

theorem Expectation.call_moved {cx : Cx V} {info : FnInfo V} {args : List V} {e : Expectation V} {w : World V}
    (h : (e.call cx info args w).1 = .error .fragileMove) :
    RetPanics cx.nightly info.default cx.tid args .fragileMove e.ret := by
  rcases Expectation.call_cases cx info args e w with ⟨q, hq, hc⟩ | ⟨hq, hc⟩
  · rw [hc] at h
    simp at h
    subst h
    exact absurd hq (Common.call_unmoved _ _ _ _)
  · rw [hc, Common.call_eq] at h
    unfold Expectation.ret_call at h
    rcases hr : e.ret with r | r | ⟨r, ps⟩
    · simp only [hr] at h
      split at h
      · simp at h
      · simp at h
        split at h <;> simp at h
    · simp only [hr] at h
      split at h
      · simp at h
      · split at h
        · simp at h
        · simp at h
        · rename_i q ho
          simp at h
          subst h
          exact ho
    · simp only [hr] at h
      split at h
      · simp at h
      · split at h
        · simp at h
        · simp at h
          split at h <;> simp at h
        · rename_i q ho
          simp at h
          subst h
          exact ho

/-- Where the panic of `into_inner` on a foreign thread can come from. -/
def Moves (nightly : Bool) (tid : Nat) (args : List V) (e : Expectation V) : Prop :=
  e.common.matcher.matches tid args = .error .fragileMove ∨
    ∃ d, RetPanics nightly d tid args .fragileMove e.ret

theorem callScan_moved {cx : Cx V} {info : FnInfo V} {args : List V} {n : Nat} {es : List (Expectation V)}
    {w : World V} (h : (callScan cx info args n es w).1 = .error .fragileMove) :
    ∃ e ∈ es, Moves cx.nightly cx.tid args e := by
  obtain ⟨e, he, h⟩ := callScan_panic h
  refine ⟨e, he, ?_⟩
  rcases h with h | ⟨_, h | h⟩
  · unfold Expectation.matches Common.matches at h
    simp only at h
    split at h
    · simp at h
    · split at h
      · simp at h
      · rename_i p hp
        simp at h
        subst h
        exact .inl hp
  · unfold Expectation.isDone Common.isDone Times.isDone subOne at h
    split at h
    · rename_i p hp
      split at hp <;> simp at hp
      simp at h; rw [← hp] at h; simp at h
    · simp at h
  · exact .inr ⟨_, Expectation.call_moved h⟩

theorem Store.call_moved {cx : Cx V} {mi : MethodInfo V} {k : Key} {args : List V} {st : Store V} {w : World V}
    (h : (st.call cx mi k args w).1 = .error .fragileMove) : ∃ e ∈ st.all, Moves cx.nightly cx.tid args e := by
  cases st with
  | concrete es => exact callScan_moved h
  | generic m =>
    simp only [Store.call] at h
    cases hg : GMap.get m k with
    | none => simp [hg] at h
    | some es =>
      simp only [hg] at h
      obtain ⟨e, he, hm⟩ := callScan_moved h
      exact ⟨e, List.mem_flatMap.mpr ⟨(k, es), GMap.mem_of_get hg, he⟩, hm⟩

theorem expectMatch_moved {cx : Cx V} {info : FnInfo V} {args : List V} {r : Except Panic (Option V)}
    (h : expectMatch cx info args r = .error .fragileMove) : r = .error .fragileMove := by
  rcases r with p | _ | v <;> simp [expectMatch] at h
  rw [h]

theorem step_moved {env : Env V} {s : Sys V} {op : Op V}
    (h : (s.step env op).1 = .value (.error .fragileMove)) :
    ∃ tid args upd, op.callInfo? = some (tid, args, upd) ∧ ∃ e ∈ s.all, Moves env.nightly tid args e := by
  cases op with
  | call o m k tid args upd =>
    refine ⟨tid, args, upd, rfl, ?_⟩
    simp only [Sys.step] at h
    rcases ho : s.objs[o]? with _ | _ | obj
    · simp [ho] at h
    · simp [ho] at h
    · simp only [ho, Obj.call] at h
      cases hm : obj[m]? with
      | none => simp [hm] at h
      | some sl =>
        simp only [hm, Obs.value.injEq] at h
        obtain ⟨e, he, hv⟩ := Store.call_moved (expectMatch_moved h)
        refine ⟨e, ?_, hv⟩
        simp only [Sys.all, List.mem_append, List.mem_flatMap]
        exact .inl ⟨some obj, List.mem_of_getElem? ho, List.mem_flatMap.mpr ⟨sl, List.mem_of_getElem? hm, he⟩⟩
  | scall f k tid args =>
    refine ⟨tid, args, id, rfl, ?_⟩
    simp only [Sys.step] at h
    cases hf : s.statics[f]? with
    | none => simp [hf] at h
    | some sf =>
      simp only [hf, StaticFn.call, Obs.value.injEq] at h
      split at h
      · simp at h
      · obtain ⟨e, he, hv⟩ := Store.call_moved (expectMatch_moved h)
        refine ⟨e, ?_, hv⟩
        simp only [Sys.all, List.mem_append, List.mem_flatMap]
        exact .inr ⟨sf, List.mem_of_getElem? hf, he⟩
  | mcheckpoint fs =>
    simp only [Sys.step] at h
    split at h <;> simp at h
  | _ =>
    simp only [Sys.step] at h
    repeat' split at h
    all_goals simp at h

/-- Where the panic of `into_inner` comes from: user code of the chain, or a foreign `return_once_st`. -/
theorem ret_moved {kind : RetKind} {nightly : Bool} {info : FnInfo V} {chain : List (Build V)} {r : Ret V}
    (hl : (lastOf (retOf kind) (retDefault nightly info) chain).later r) (d : Option V) (tid : Nat) (args : List V) :
    RetPanics nightly d tid args .fragileMove r →
    (∃ b ∈ chain, Raises .fragileMove b) ∨ ∃ t f, .returnOnceSt t f ∈ chain ∧ t ≠ tid := by
  intro h
  rcases lastOf_origin (retOf kind) (retDefault nightly info) chain with hd | ⟨b, hb, hg⟩
  · rw [hd] at hl
    unfold retDefault at hl
    rcases r with r | r | ⟨r, ps⟩
    · exact h.elim
    · split at hl <;> simp only [Ret.later] at hl
      rcases r with (_ | _) | _ | _ | _ <;> simp_all [RetPanics, RefMutRfunc.later, RefMutRfunc.callMut]
    · split at hl <;> simp only [Ret.later] at hl
      rcases r with _ | _ | _ | _ | _ | _ <;> simp_all [RetPanics, StaticRfunc.later, StaticRfunc.callMut]
  · generalize lastOf (retOf kind) (retDefault nightly info) chain = r0 at hg hl
    rcases r with r | r | ⟨r, ps⟩
    · exact h.elim
    · rcases r0 with r0 | r0 | ⟨r0, ps0⟩ <;> simp only [Ret.later] at hl
      simp only [RetPanics] at h
      rcases r with (_ | _) | ⟨f, o⟩ | ⟨t, f, o⟩ | _ <;> simp only [RefMutRfunc.callMut, reduceCtorEq] at h
      · rcases r0 with (_ | _) | ⟨f0, o0⟩ | ⟨t0, f0, o0⟩ | _ <;> simp only [RefMutRfunc.later] at hl
        have hf : f.run f.hist args = .error .fragileMove := by
          simp only [Closure.call] at h
          split at h <;> simp_all
        cases b <;> cases kind <;> simp only [retOf, Option.some.injEq, reduceCtorEq, Ret.refMut.injEq,
          RefMutRfunc.mut.injEq] at hg
        rw [hl.1, ← hg.1] at hf
        exact .inl ⟨_, hb, _, _, hf⟩
      · rcases r0 with (_ | _) | ⟨f0, o0⟩ | ⟨t0, f0, o0⟩ | _ <;> simp only [RefMutRfunc.later] at hl
        cases b <;> cases kind <;> simp only [retOf, Option.some.injEq, reduceCtorEq, Ret.refMut.injEq,
          RefMutRfunc.mutSt.injEq] at hg
        obtain ⟨rfl, hl⟩ := hl
        by_cases ht : tid = t0
        · have hf : f.run f.hist args = .error .fragileMove := by
            simp only [ht, if_true, Closure.call] at h
            split at h <;> simp_all
          rw [hl.1, ← hg.2.1] at hf
          exact .inl ⟨_, hb, _, _, hf⟩
        · simp only [ht, if_false] at h
          simp at h
    · rcases r0 with r0 | r0 | ⟨r0, ps0⟩ <;> simp only [Ret.later] at hl
      simp only [RetPanics] at h
      rcases r with _ | _ | f | ⟨t, f⟩ | f | ⟨t, f⟩ <;> simp only [StaticRfunc.callMut, reduceCtorEq] at h
      · rcases r0 with _ | _ | f0 | ⟨t0, f0⟩ | f0 | ⟨t0, f0⟩ <;> simp only [StaticRfunc.later] at hl
        have hf : f.run f.hist args = .error .fragileMove := by
          simp only [Closure.call] at h
          split at h <;> simp_all
        cases b <;> cases kind <;> simp only [retOf, Option.some.injEq, reduceCtorEq, false_and, Ret.static.injEq,
          StaticRfunc.mut.injEq] at hg
        · rw [hl.1, ← hg.1] at hf
          exact .inl ⟨_, hb, _, _, hf⟩
        · rw [hl.1, ← hg.1] at hf
          simp at hf
      · rcases r0 with _ | _ | f0 | ⟨t0, f0⟩ | f0 | ⟨t0, f0⟩ <;> simp only [StaticRfunc.later] at hl
        obtain ⟨rfl, hl⟩ := hl
        have hf : (tid = t0 ∧ f.run f.hist args = .error .fragileMove) ∨ (tid ≠ t0 ∧ False) := by
          by_cases ht : tid = t0
          · refine .inl ⟨ht, ?_⟩
            simp only [ht, if_true, Closure.call] at h
            split at h <;> simp_all
          · simp only [ht, if_false] at h
            simp at h
        cases b <;> cases kind <;> simp only [retOf, Option.some.injEq, reduceCtorEq, false_and, Ret.static.injEq,
          StaticRfunc.mutSt.injEq] at hg
        · rcases hf with ⟨_, hf⟩ | ⟨ht, hf⟩
          · rw [hl.1, ← hg.1.2] at hf
            exact .inl ⟨_, hb, _, _, hf⟩
          · exact hf.elim
        · rcases hf with ⟨_, hf⟩ | ⟨ht, hf⟩
          · rw [hl.1, ← hg.1.2] at hf
            simp at hf
          · exact hf.elim
      · rcases r0 with _ | _ | f0 | ⟨t0, f0⟩ | f0 | ⟨t0, f0⟩ <;> simp only [StaticRfunc.later] at hl
        have hf : f.run args = .error .fragileMove := by split at h <;> simp_all
        cases b <;> cases kind <;> simp only [retOf, Option.some.injEq, reduceCtorEq, false_and, Ret.static.injEq,
          StaticRfunc.once.injEq] at hg
        rw [← hl, ← hg.1] at hf
        exact .inl ⟨_, hb, _, hf⟩
      · rcases r0 with _ | _ | f0 | ⟨t0, f0⟩ | f0 | ⟨t0, f0⟩ <;> simp only [StaticRfunc.later] at hl
        obtain ⟨rfl, hl⟩ := hl
        cases b <;> cases kind <;> simp only [retOf, Option.some.injEq, reduceCtorEq, false_and, Ret.static.injEq,
          StaticRfunc.onceSt.injEq] at hg
        by_cases ht : tid = t0
        · have hf : f.run args = .error .fragileMove := by
            simp only [ht, if_true] at h
            split at h <;> simp_all
          rw [← hl, ← hg.1.2] at hf
          exact .inl ⟨_, hb, _, hf⟩
        · simp only [ht, if_false] at h
          exact .inr ⟨_, _, hb, by rw [hg.1.1]; exact fun h => ht h.symm⟩

/-- It comes from user code or from a `return_once_st` closure of another thread. -/
theorem _root_.Mockall.OnInv.moves {ni : Bool} {done : List (Op V)} {s : Sys V} (h : OnInv ni done s) {tid : Nat} {args : List V}
    {e : Expectation V} (he : e ∈ s.all) (hm : Moves ni tid args e) :
    (∃ b ∈ e.chain, Raises .fragileMove b) ∨ ∃ t f, .returnOnceSt t f ∈ e.chain ∧ t ≠ tid := by
  have hL := h.inv.live e he
  rcases hm with hm | ⟨d, hm⟩
  · rw [hL.matcher, verdict_matches] at hm
    rcases verdict_panic hm with ⟨b, hb, hR⟩ | ⟨hf, _⟩
    · exact .inl ⟨b, hb, hR⟩
    · simp at hf
  · exact ret_moved hL.ret.1 d tid args hm

/-! ## The home thread -/

/-- A program that keeps to one thread `t0` where single threaded closures are concerned. -/
structure Home (t0 : Nat) (ops : List (Nat × Op V)) : Prop where
  /-- every single threaded closure is registered on `t0` -/
  registered : ∀ b ∈ buildsOf (ops.map (·.2)), ∀ t, registeredOn b = some t → t = t0
  /-- everything that destroys expectations happens on `t0` -/
  destroyed : ∀ x ∈ ops, destroys x.2 = true → x.1 = t0
  /-- if `return_once_st` is used, calls are made on `t0` -/
  once : ∀ t f, .returnOnceSt t f ∈ buildsOf (ops.map (·.2)) →
    ∀ x ∈ ops, ∀ u args upd, x.2.callInfo? = some (u, args, upd) → u = t0
  /-- user code does not imitate the panic of `Fragile::into_inner` -/
  user : ∀ b ∈ buildsOf (ops.map (·.2)), ¬ Raises .fragileMove b

theorem lastOf_none {f : Build V → Option (Option Nat)} {chain : List (Build V)} {t : Nat}
    (h : lastOf f none chain = some t) : ∃ b ∈ chain, f b = some (some t) := by
  rcases lastOf_origin f none chain with hd | ⟨b, hb, hg⟩
  · rw [hd] at h; simp at h
  · exact ⟨b, hb, by rw [hg, h]⟩

theorem matcherTie_registered {b : Build V} {t : Nat} (h : matcherTie b = some (some t)) :
    registeredOn b = some t := by
  cases b <;> simp_all [matcherTie, registeredOn]

theorem returnTie_registered {used : Bool} {kind : RetKind} {b : Build V} {t : Nat}
    (h : returnTie used kind b = some (some t)) : registeredOn b = some t := by
  cases b <;> cases kind <;> cases used <;> simp_all [returnTie, registeredOn]

theorem Away.registered {tid : Nat} {kind : RetKind} {used : Bool} {chain : List (Build V)}
    (h : Away tid kind used chain) : ∃ b ∈ chain, ∃ t, registeredOn b = some t ∧ t ≠ tid := by
  obtain ⟨t, hne, h | h⟩ := h
  · obtain ⟨b, hb, hg⟩ := lastOf_none h
    exact ⟨b, hb, t, matcherTie_registered hg, hne⟩
  · obtain ⟨b, hb, hg⟩ := lastOf_none h
    exact ⟨b, hb, t, returnTie_registered hg, hne⟩

theorem home_aux {env : Env V} (hf : env.Fair) {t0 : Nat} {all : List (Nat × Op V)} (hh : Home t0 all) :
    ∀ (ops pre : List (Nat × Op V)) (s : Sys V), all = pre ++ ops → OnInv env.nightly (pre.map (·.2)) s →
      Sys.runOn env ops s = ((Sys.run env (ops.map (·.2)) s).1.map .seen, (Sys.run env (ops.map (·.2)) s).2) := by
  intro ops
  induction ops with
  | nil => intro pre s _ _; rfl
  | cons op ops ih =>
    intro pre s hall hinv
    have hbuild : ∀ e ∈ s.all, ∀ b ∈ e.chain, b ∈ buildsOf (all.map (·.2)) := by
      intro e he b hb
      have := hinv.chain e he b hb
      rw [hall]
      simp only [buildsOf, List.map_append, List.flatMap_append, List.mem_append] at this ⊢
      exact .inl this
    have hmem : op ∈ all := by rw [hall]; simp
    have hstep : s.stepOn env op.1 op.2 = (.seen (s.step env op.2).1, (s.step env op.2).2) := by
      refine stepOn_home hf ?_ ?_
      · intro hd e he
        rw [hh.destroyed op hmem hd]
        cases ha : e.away t0 with
        | false => rfl
        | true =>
          exfalso
          obtain ⟨b, hb, t, ht, hne⟩ := Away.registered ((hinv.away he t0).mp ha)
          exact hne (hh.registered b (hbuild e he b hb) t ht)
      · intro hm
        obtain ⟨u, args, upd, hc, e, he, hmv⟩ := step_moved hm
        rcases hinv.moves he hmv with ⟨b, hb, hR⟩ | ⟨t, f, hb, hne⟩
        · exact hh.user b (hbuild e he b hb) hR
        · have h1 := hh.once t f (hbuild e he _ hb) op hmem u args upd hc
          have h2 := hh.registered _ (hbuild e he _ hb) t rfl
          exact hne (h2.trans h1.symm)
    have hinv' := hinv.stepOn op.1 op.2
    rw [hstep] at hinv'
    have := ih (pre ++ [op]) (s.step env op.2).2 (by simp [hall]) (by simpa using hinv')
    simp only [Sys.runOn, hstep, this, List.map_cons, Sys.run]

/-- **C73**: on the thread that registered the single threaded closures nothing is different: a program
that registers them, destroys expectations and (if `return_once_st` is used) makes its calls on one thread,
makes exactly the observations it makes when `Fragile` has no destructor.  So everything proved about
`Sys.run` holds for it. -/
theorem C73_home {env : Env V} (hf : env.Fair) (sts : List (MethodInfo V)) {t0 : Nat}
    {ops : List (Nat × Op V)} (hh : Home t0 ops) :
    Sys.runOn env ops (Sys.init sts) =
      ((Sys.run env (ops.map (·.2)) (Sys.init sts)).1.map .seen, (Sys.run env (ops.map (·.2)) (Sys.init sts)).2) :=
  home_aux hf hh ops [] _ rfl (OnInv.init _ _)

/-! ## What a foreign thread does -/

/-- The state after a program executed by several threads, with destructors. -/
def stateOn (env : Env V) (sts : List (MethodInfo V)) (ops : List (Nat × Op V)) : Sys V :=
  (Sys.runOn env ops (Sys.init sts)).2

/-- `e` still holds a single threaded closure of a thread other than `tid`. -/
def AwayIn (s : Sys V) (tid : Nat) (e : Expectation V) : Prop :=
  Away tid e.info.kind (usedIn s.world e) e.chain

theorem onInv_stateOn (env : Env V) (sts : List (MethodInfo V)) (ops : List (Nat × Op V)) :
    ∃ done, OnInv env.nightly done (stateOn env sts ops) := by
  obtain ⟨pre, _, h⟩ := OnInv.runOn (env := env) ops (OnInv.init env.nightly sts)
  exact ⟨_, h⟩

theorem sorted_obj_target {ni : Bool} {s : Sys V} (h : s.Sorted ni) {o : Nat} {obj : Obj V}
    (ho : s.objs[o]? = some (some obj)) (e : Expectation V) :
    e ∈ obj.all ↔ ∃ m k, e ∈ s.target (.inst o m k) := by
  have hs := h.objs o obj ho
  simp only [Obj.all, List.mem_flatMap, Sys.target, ho]
  constructor
  · rintro ⟨sl, hsl, he⟩
    obtain ⟨m, hm⟩ := List.getElem?_of_mem hsl
    obtain ⟨k, hk⟩ := (Store.mem_all_target (hs m sl hm).keys e).mp he
    exact ⟨m, k, by rw [hm]; exact hk⟩
  · rintro ⟨m, k, he⟩
    rcases hm : obj[m]? with _ | sl
    · rw [hm] at he; simp at he
    · rw [hm] at he
      exact ⟨sl, List.mem_of_getElem? hm, (Store.mem_all_target (hs m sl hm).keys e).mpr ⟨k, he⟩⟩

theorem sorted_static_target {ni : Bool} {s : Sys V} (h : s.Sorted ni) {f : Nat} {sf : StaticFn V}
    (hf : s.statics[f]? = some sf) (e : Expectation V) :
    e ∈ sf.store.all ↔ ∃ k, e ∈ s.target (.stat f k) := by
  simp only [Sys.target, hf]
  exact Store.mem_all_target (h.statics f sf hf).keys e

theorem mem_all_obj {s : Sys V} {o : Nat} {obj : Obj V} (ho : s.objs[o]? = some (some obj)) {e : Expectation V}
    (he : e ∈ obj.all) : e ∈ s.all := by
  simp only [Sys.all, List.mem_append, List.mem_flatMap]
  exact .inl ⟨some obj, List.mem_of_getElem? ho, he⟩

theorem mem_all_static {s : Sys V} {f : Nat} {sf : StaticFn V} (hf : s.statics[f]? = some sf) {e : Expectation V}
    (he : e ∈ sf.store.all) : e ∈ s.all := by
  simp only [Sys.all, List.mem_append, List.mem_flatMap]
  exact .inr ⟨sf, List.mem_of_getElem? hf, he⟩

/-- Some expectation of the object is away, in the words of the model and of the specification. -/
theorem obj_away {env env' : Env V} (hfair : env'.Fair) {sts : List (MethodInfo V)} {ops : List (Nat × Op V)}
    {o : Nat} {obj : Obj V} (ho : (stateOn env sts ops).objs[o]? = some (some obj)) (tid : Nat) :
    ((obj.order env').map (·.2)).any (·.away tid) = true ↔
      ∃ m k, ∃ e ∈ (stateOn env sts ops).target (.inst o m k), AwayIn (stateOn env sts ops) tid e := by
  obtain ⟨done, hI⟩ := onInv_stateOn env sts ops
  simp only [List.any_eq_true, List.mem_map]
  constructor
  · rintro ⟨e, ⟨⟨i, x⟩, hx, rfl⟩, ha⟩
    have he := (Obj.mem_order hfair obj x).mp ⟨i, hx⟩
    obtain ⟨m, k, hk⟩ := (sorted_obj_target hI.sorted ho x).mp he
    exact ⟨m, k, x, hk, (hI.away (mem_all_obj ho he) tid).mp ha⟩
  · rintro ⟨m, k, e, he, ha⟩
    have he' := (sorted_obj_target hI.sorted ho e).mpr ⟨m, k, he⟩
    obtain ⟨i, hi⟩ := (Obj.mem_order hfair obj e).mpr he'
    exact ⟨e, ⟨(i, e), hi, rfl⟩, (hI.away (mem_all_obj ho he') tid).mpr ha⟩

theorem static_away {env env' : Env V} (hfair : env'.Fair) {sts : List (MethodInfo V)} {ops : List (Nat × Op V)}
    {f : Nat} {sf : StaticFn V} (hf : (stateOn env sts ops).statics[f]? = some sf) (tid : Nat) :
    (sf.store.elems env').any (·.away tid) = true ↔
      ∃ k, ∃ e ∈ (stateOn env sts ops).target (.stat f k), AwayIn (stateOn env sts ops) tid e := by
  obtain ⟨done, hI⟩ := onInv_stateOn env sts ops
  simp only [List.any_eq_true]
  constructor
  · rintro ⟨x, hx, ha⟩
    have he := (Store.mem_elems hfair _ x).mp hx
    obtain ⟨k, hk⟩ := (sorted_static_target hI.sorted hf x).mp he
    exact ⟨k, x, hk, (hI.away (mem_all_static hf he) tid).mp ha⟩
  · rintro ⟨k, e, he, ha⟩
    have he' := (sorted_static_target hI.sorted hf e).mpr ⟨k, he⟩
    exact ⟨e, (Store.mem_elems hfair _ e).mpr he', (hI.away (mem_all_static hf he') tid).mpr ha⟩

/-- **C73**: dropping a mock object on thread `tid` while that thread panics aborts the process if one of
its expectations holds a single threaded closure of another thread, and completes otherwise. -/
theorem C73_unwinding_object {env env' : Env V} (hfair : env'.Fair) (sts : List (MethodInfo V))
    (ops : List (Nat × Op V)) (tid o : Nat) (obj : Obj V)
    (ho : (stateOn env sts ops).objs[o]? = some (some obj)) :
    let s := stateOn env sts ops
    let r := (s.stepOn env' tid (.drop o true)).1
    ((∃ m k, ∃ e ∈ s.target (.inst o m k), AwayIn s tid e) → r = .aborted) ∧
    ((∀ m k, ∀ e ∈ s.target (.inst o m k), ¬ AwayIn s tid e) → r = .seen (.unit (.ok ()) false)) := by
  intro s r
  have hr : r = (obj.dropOn env' tid true).obs := by simp only [r, s, Sys.stepOn, ho]
  rw [hr, Obj.dropOn_abort]
  constructor
  · intro h
    rw [if_pos ((obj_away hfair ho tid).mpr h)]; rfl
  · intro h
    rw [if_neg (fun ha => ?_)]
    · rfl
    · obtain ⟨m, k, e, he, hA⟩ := (obj_away hfair ho tid).mp ha
      exact h m k e he hA

/-- **C73** for the `Context` of a static function. -/
theorem C73_unwinding_context {env env' : Env V} (hfair : env'.Fair) (sts : List (MethodInfo V))
    (ops : List (Nat × Op V)) (tid f : Nat) (sf : StaticFn V)
    (hf : (stateOn env sts ops).statics[f]? = some sf) :
    let s := stateOn env sts ops
    let r := (s.stepOn env' tid (.sdrop f true)).1
    ((∃ k, ∃ e ∈ s.target (.stat f k), AwayIn s tid e) → r = .aborted) ∧
    ((∀ k, ∀ e ∈ s.target (.stat f k), ¬ AwayIn s tid e) → r = .seen (.unit (.ok ()) false)) := by
  intro s r
  have hr : r = (dropAllOn tid sf.mi.base true (sf.store.elems env')).obs := by
    simp only [r, s, Sys.stepOn, hf, StaticFn.dropContextOn, if_true]
  rw [hr, dropAllOn_abort]
  constructor
  · intro h
    rw [if_pos ((static_away hfair hf tid).mpr h)]; rfl
  · intro h
    rw [if_neg (fun ha => ?_)]
    · rfl
    · obtain ⟨k, e, he, hA⟩ := (static_away hfair hf tid).mp ha
      exact h k e he hA

/-! ### Without a panic in progress -/

theorem Fate.andThen_done {f : Fate} {pk : Bool} {next : Bool → Fate} :
    f.andThen pk next = .done ↔ f = .done ∧ next pk = .done := by
  cases f with
  | done => simp [Fate.andThen]
  | panicked p => simp only [Fate.andThen]; split <;> simp
  | aborted => simp [Fate.andThen]

theorem dropAllOn_done (tid : Nat) (info : FnInfo V) (es : List (Expectation V)) :
    dropAllOn tid info false es = .done ↔ ∀ e ∈ es, e.fault info = none ∧ e.away tid = false := by
  rw [dropAllOn_calm, fate_done, List.flatMap_eq_nil_iff]
  constructor
  · intro h e he; exact sources_nil.mp (h e he)
  · intro h e he; exact sources_nil.mpr (h e he)

theorem dropMapOn_done (tid : Nat) (info : FnInfo V) (m : GMap V) :
    dropMapOn tid info false m = .done ↔ ∀ e ∈ m.flatMap (·.2), e.fault info = none ∧ e.away tid = false := by
  induction m with
  | nil => simp [dropMapOn]
  | cons p m ih =>
    simp only [List.flatMap_cons, List.mem_append]
    have := dropAllOn_done tid info p.2
    simp only [dropMapOn]
    rcases hd : dropAllOn tid info false p.2 with _ | q | _
    · simp only [hd, true_iff] at this
      rw [ih]
      constructor
      · rintro h e (he | he)
        · exact this e he
        · exact h e he
      · intro h e he; exact h e (.inr he)
    · simp only [hd, reduceCtorEq, false_iff] at this ⊢
      exact fun h => this fun e he => h e (.inl he)
    · simp only [hd, reduceCtorEq, false_iff] at this ⊢
      exact fun h => this fun e he => h e (.inl he)

theorem Store.dropOn_done (env : Env V) (tid : Nat) (info : FnInfo V) (st : Store V) :
    st.dropOn env tid info false = .done ↔ ∀ e ∈ st.elems env, e.fault info = none ∧ e.away tid = false := by
  cases st with
  | concrete es => exact dropAllOn_done tid info es
  | generic m => exact dropMapOn_done tid info (env.ord m)

theorem Obj.dropOn_done (env : Env V) (tid : Nat) (obj : Obj V) :
    obj.dropOn env tid false = .done ↔
      ∀ x ∈ obj.order env, x.2.fault x.1 = none ∧ x.2.away tid = false := by
  induction obj with
  | nil => simp [Obj.dropOn, Obj.order]
  | cons s ss ih =>
    simp only [Obj.dropOn, Fate.andThen_done, Store.dropOn_done, ih, Obj.order, List.flatMap_cons,
      List.mem_append, List.mem_map]
    constructor
    · rintro ⟨h1, h2⟩ x (⟨e, he, rfl⟩ | hx)
      · exact h1 e he
      · exact h2 x hx
    · intro h
      exact ⟨fun e he => h (s.mi.base, e) (.inl ⟨e, he, rfl⟩), fun x hx => h x (.inr hx)⟩

theorem Obj.checkpointOn_done (env : Env V) (tid : Nat) (obj : Obj V) :
    (obj.checkpointOn env tid).1 = .done ↔
      ∀ x ∈ obj.order env, x.2.fault x.1 = none ∧ x.2.away tid = false := by
  induction obj with
  | nil => simp [Obj.checkpointOn, Obj.order]
  | cons s ss ih =>
    have key : ((Obj.checkpointOn env tid (s :: ss)).1 = .done) ↔
        (s.store.dropOn env tid s.mi.base false = .done ∧ (Obj.checkpointOn env tid ss).1 = .done) := by
      simp only [Obj.checkpointOn]
      rcases hd : s.store.dropOn env tid s.mi.base false <;> simp
    rw [key, ih, Store.dropOn_done]
    simp only [Obj.order, List.flatMap_cons, List.mem_append, List.mem_map]
    constructor
    · rintro ⟨h1, h2⟩ x (⟨e, he, rfl⟩ | hx)
      · exact h1 e he
      · exact h2 x hx
    · intro h
      exact ⟨fun e he => h (s.mi.base, e) (.inl ⟨e, he, rfl⟩), fun x hx => h x (.inr hx)⟩

theorem verdict_ok {o : Option Panic} : Mockall.verdict o = .ok () ↔ o = none := by
  cases o <;> simp [Mockall.verdict]

theorem Fate.obs_ok {f : Fate} : f.obs (V := V) = .seen (.unit (.ok ()) false) ↔ f = .done := by
  rcases f with _ | (_ | _) | _ <;> simp [Fate.obs]

/-- **C73**: dropping a mock object on thread `tid` completes exactly if its expectations are satisfied
(the drop completes when `Fragile` has no destructor) and none of them holds a single threaded closure of
another thread. -/
theorem C73_drop {env env' : Env V} (hfair : env'.Fair) (sts : List (MethodInfo V))
    (ops : List (Nat × Op V)) (tid o : Nat) (obj : Obj V)
    (ho : (stateOn env sts ops).objs[o]? = some (some obj)) :
    let s := stateOn env sts ops
    (s.stepOn env' tid (.drop o false)).1 = .seen (.unit (.ok ()) false) ↔
      (s.step env' (.drop o false)).1 = .unit (.ok ()) false ∧
      ∀ m k, ∀ e ∈ s.target (.inst o m k), ¬ AwayIn s tid e := by
  intro s
  have h1 : (s.stepOn env' tid (.drop o false)).1 = (obj.dropOn env' tid false).obs := by
    simp only [s, Sys.stepOn, ho]
  have h2 : (s.step env' (.drop o false)).1 = .unit (obj.drop env' false).1 (obj.drop env' false).2 := by
    simp only [s, Sys.step, ho]
  rw [h1, h2, Fate.obs_ok, Obj.dropOn_done, Obj.drop_eq]
  have h3 := obj_away (env' := env') hfair ho tid
  simp only [Obs.unit.injEq, and_true, verdict_ok, List.findSome?_eq_none_iff]
  constructor
  · intro h
    refine ⟨fun x hx => (h x hx).1, fun m k e he hA => ?_⟩
    have := h3.mpr ⟨m, k, e, he, hA⟩
    simp only [List.any_eq_true, List.mem_map] at this
    obtain ⟨e', ⟨x, hx, rfl⟩, ha⟩ := this
    rw [(h x hx).2] at ha
    simp at ha
  · rintro ⟨ha, hb⟩ x hx
    refine ⟨ha x hx, ?_⟩
    cases hc : x.2.away tid with
    | false => rfl
    | true =>
      obtain ⟨m, k, e, he, hA⟩ := h3.mp (by
        simp only [List.any_eq_true, List.mem_map]; exact ⟨_, ⟨x, hx, rfl⟩, hc⟩)
      exact absurd hA (hb m k e he)

/-- **C73**: the same for `checkpoint`. -/
theorem C73_checkpoint {env env' : Env V} (hfair : env'.Fair) (sts : List (MethodInfo V))
    (ops : List (Nat × Op V)) (tid o : Nat) (obj : Obj V)
    (ho : (stateOn env sts ops).objs[o]? = some (some obj)) :
    let s := stateOn env sts ops
    (s.stepOn env' tid (.checkpoint o)).1 = .seen (.unit (.ok ()) false) ↔
      (s.step env' (.checkpoint o)).1 = .unit (.ok ()) false ∧
      ∀ m k, ∀ e ∈ s.target (.inst o m k), ¬ AwayIn s tid e := by
  intro s
  have h1 : (s.stepOn env' tid (.checkpoint o)).1 = (obj.checkpointOn env' tid).1.obs := by
    simp only [s, Sys.stepOn, ho]
  have h2 : (s.step env' (.checkpoint o)).1 = .unit (obj.checkpoint env' false).1.1 (obj.checkpoint env' false).1.2 := by
    simp only [s, Sys.step, ho]
  rw [h1, h2, Fate.obs_ok, Obj.checkpointOn_done, Obj.checkpoint_eq]
  have h3 := obj_away (env' := env') hfair ho tid
  simp only [Obs.unit.injEq, and_true, verdict_ok, List.findSome?_eq_none_iff]
  constructor
  · intro h
    refine ⟨fun x hx => (h x hx).1, fun m k e he hA => ?_⟩
    have := h3.mpr ⟨m, k, e, he, hA⟩
    simp only [List.any_eq_true, List.mem_map] at this
    obtain ⟨e', ⟨x, hx, rfl⟩, ha⟩ := this
    rw [(h x hx).2] at ha
    simp at ha
  · rintro ⟨ha, hb⟩ x hx
    refine ⟨ha x hx, ?_⟩
    cases hc : x.2.away tid with
    | false => rfl
    | true =>
      obtain ⟨m, k, e, he, hA⟩ := h3.mp (by
        simp only [List.any_eq_true, List.mem_map]; exact ⟨_, ⟨x, hx, rfl⟩, hc⟩)
      exact absurd hA (hb m k e he)

theorem awayList_tie {b : Bool} {x : Option Nat} {tid : Nat} (h : b = true ↔ ∃ t, t ≠ tid ∧ x = some t) :
    awayList b = tiedPanics tid x := by
  cases b with
  | false =>
    simp only [Bool.false_eq_true, false_iff, not_exists, not_and] at h
    rcases x with _ | t
    · rfl
    · have : t = tid := Classical.byContradiction fun hne => h t hne rfl
      simp [awayList, tiedPanics, this]
  | true =>
    obtain ⟨t, hne, rfl⟩ := h.mp rfl
    simp [awayList, tiedPanics, hne]

theorem _root_.Mockall.OnInv.sources {ni : Bool} {done : List (Op V)} {s : Sys V} (h : OnInv ni done s) {e : Expectation V}
    (he : e ∈ s.all) (tid : Nat) (info : FnInfo V) :
    e.sources tid info = dropPanics tid e.info.kind (usedIn s.world e) (e.fault info) e.chain := by
  have hm : e.common.matcher.away tid = true ↔ ∃ t, t ≠ tid ∧ lastOf matcherTie none e.chain = some t := by
    rw [(h.inv.live e he).matcher, matcher_tie]
  have hr : e.ret.away tid = true ↔
      ∃ t, t ≠ tid ∧ lastOf (returnTie (usedIn s.world e) e.info.kind) none e.chain = some t := by
    rw [Ret.away_tie, h.tie he]
  unfold Expectation.sources dropPanics
  rw [awayList_tie hm, awayList_tie hr]

/-- **C73**: what a `checkpoint` or drop of the `Context` of a function that is not generic does on thread
`tid`: the panics of the destructors of its expectations, in order; the first one leaves the
operation, unless a single threaded closure of another thread comes later, which aborts the process. -/
theorem C73_context {env env' : Env V} (sts : List (MethodInfo V))
    (ops : List (Nat × Op V)) (tid f : Nat) (sf : StaticFn V) (op : Op V)
    (hf : (stateOn env sts ops).statics[f]? = some sf) (hg : sf.mi.generic = false) (hp : sf.poison = false)
    (hop : op = .scheckpoint f ∨ op = .sdrop f false) :
    let s := stateOn env sts ops
    (s.stepOn env' tid op).1 = (fate ((s.target (.stat f 0)).flatMap fun e =>
      dropPanics tid e.info.kind (usedIn s.world e) (e.fault sf.mi.base) e.chain)).obs := by
  intro s
  obtain ⟨done, hI⟩ := onInv_stateOn env sts ops
  have h1 : (s.stepOn env' tid op).1 = (dropAllOn tid sf.mi.base false (sf.store.elems env')).obs := by
    rcases hop with rfl | rfl <;>
      simp [s, Sys.stepOn, hf, StaticFn.checkpointOn, StaticFn.dropContextOn, hp]
  have h2 : sf.store.elems env' = s.target (.stat f 0) := by
    have := (hI.sorted.statics f sf hf).generic
    rw [hg] at this
    simp only [s, Sys.target, hf]
    cases hst : sf.store with
    | concrete es => rfl
    | generic m => rw [hst] at this; simp [Store.isGeneric] at this
  rw [h1, dropAllOn_calm, h2]
  congr 2
  refine flatMap_ext fun e he => hI.sources ?_ tid _
  exact mem_all_static hf ((sorted_static_target hI.sorted hf e).mpr ⟨0, he⟩)

theorem fate_aborted {l1 l2 : List DropPanic} (h1 : l1 ≠ []) (h2 : .wrongThread ∈ l2) :
    fate (l1 ++ l2) = .aborted := by
  cases l1 with
  | nil => exact absurd rfl h1
  | cons p l1 => simp [fate, h2]

theorem dropAllOn_fault_away {tid : Nat} {info : FnInfo V} {pk : Bool} {es : List (Expectation V)}
    {e : Expectation V} (he : e ∈ es) (hf : e.fault info ≠ none) (ha : e.away tid = true) :
    dropAllOn tid info pk es = .aborted := by
  cases pk with
  | true =>
    rw [dropAllOn_abort, if_pos]
    simp only [List.any_eq_true]; exact ⟨e, he, ha⟩
  | false =>
    rw [dropAllOn_calm]
    obtain ⟨l1, l2, rfl⟩ := List.append_of_mem he
    obtain ⟨p, hp⟩ := Option.ne_none_iff_exists'.mp hf
    simp only [List.flatMap_append, List.flatMap_cons]
    have : e.sources tid info =
        [.verify p] ++ (awayList (e.common.matcher.away tid) ++ awayList (e.ret.away tid)) := by
      simp [Expectation.sources, hp]
    rw [this, ← List.append_assoc, ← List.append_assoc, List.append_assoc]
    refine fate_aborted (by simp) ?_
    unfold Expectation.away at ha
    cases hm : e.common.matcher.away tid <;> cases hr : e.ret.away tid <;> simp_all [awayList]

theorem Obj.dropOn_fault_away {env : Env V} {tid : Nat} {obj : Obj V} {sl : Slot V} {es : List (Expectation V)}
    {e : Expectation V} (hs : sl ∈ obj) (hst : sl.store = .concrete es) (he : e ∈ es)
    (hf : e.fault sl.mi.base ≠ none) (ha : e.away tid = true) (pk : Bool) :
    obj.dropOn env tid pk = .aborted := by
  induction obj generalizing pk with
  | nil => simp at hs
  | cons s ss ih =>
    simp only [Obj.dropOn]
    rcases List.mem_cons.mp hs with rfl | hs
    · rw [hst]
      simp only [Store.dropOn, dropAllOn_fault_away he hf ha, Fate.andThen]
    · have ih := ih hs
      rcases s.store.dropOn env tid s.mi.base pk with _ | p | _ <;> simp [Fate.andThen, ih]

/-- **C73**: a mock object with an unsatisfied expectation (of a method that is not generic) that holds a
single threaded closure of another thread aborts the process when it is dropped, instead of reporting
the expectation. -/
theorem C73_unmet {env env' : Env V} (sts : List (MethodInfo V)) (ops : List (Nat × Op V))
    (tid o m : Nat) (k : Key) (mi : MethodInfo V) (pk : Bool) (e : Expectation V) :
    let s := stateOn env sts ops
    s.infoOf (.inst o m k) = some mi → mi.generic = false → e ∈ s.target (.inst o m k) →
    e.drop false mi.base ≠ .ok () → AwayIn s tid e →
    (s.stepOn env' tid (.drop o pk)).1 = .aborted := by
  intro s hmi hg he hbad hA
  obtain ⟨done, hI⟩ := onInv_stateOn env sts ops
  simp only [Sys.infoOf] at hmi
  simp only [Sys.target] at he
  rcases ho : s.objs[o]? with _ | _ | obj
  · simp [ho] at hmi
  · simp [ho] at hmi
  · simp only [ho] at hmi he
    rcases hm : obj[m]? with _ | sl
    · simp [hm] at hmi
    · simp only [hm, Option.map_some, Option.some.injEq] at hmi he
      subst hmi
      have hgen := (hI.sorted.objs o obj ho m sl hm).generic
      rw [hg] at hgen
      have hall : e ∈ s.all := mem_all_obj ho (List.mem_flatMap.mpr ⟨sl, List.mem_of_getElem? hm,
        (Store.mem_all_target (hI.sorted.objs o obj ho m sl hm).keys e).mpr ⟨k, he⟩⟩)
      cases hst : sl.store with
      | generic m => rw [hst] at hgen; simp [Store.isGeneric] at hgen
      | concrete es =>
        rw [hst] at he
        have : obj.dropOn env' tid pk = .aborted :=
          Obj.dropOn_fault_away (List.mem_of_getElem? hm) hst he
            (fun h => hbad (Expectation.fault_none.mp h)) ((hI.away hall tid).mpr hA) pk
        simp only [Sys.stepOn, ho, this]
        rfl

/-- **C73**: a call on another thread that a `return_once_st` expectation answers for the first time
aborts the process. -/
theorem C73_once (env : Env V) (sts : List (MethodInfo V)) (ops : List (Op V)) (c : Callee)
    (mi : MethodInfo V) (tid u : Nat) (args : List V) (upd : V → V) (e : Expectation V) (t : Nat) (f : OnceClosure V)
    (h : Answered env sts ops c mi tid args upd e)
    (hs : returnSetter mi.base.kind e.chain = some (.returnOnceSt t f)) (hk : mi.base.kind = .static)
    (hfirst : earlier env sts ops e = []) (ht : tid ≠ t) :
    ((Sys.run env ops (Sys.init sts)).2.stepOn env u (c.op tid args upd)).1 = .aborted := by
  have := (h.fold (.static (.onceSt t f) false) (by rw [hs]; simp [hk, retOf]) rfl _ rfl).1
  rw [hfirst] at this
  simp only [List.foldl_nil, Ret.reply, StaticRfunc.callMut, ht, if_false] at this
  unfold nextObs at this
  cases c with
  | inst o m k => simp only [Callee.op] at this ⊢; simp only [Sys.stepOn, this, Obs.withMove]
  | stat g k => simp only [Callee.op] at this ⊢; simp only [Sys.stepOn, this, Obs.withMove]

/-- **C26** as stated ("never panics, whatever the state of its expectations") is false: a mock object
whose expectation was given a closure by `returning_st` on thread 0, dropped by thread 1 while that
thread is panicking, aborts the process. -/
theorem C26_refuted : ¬ ∀ (ops : List (Nat × Op Nat)) (tid o : Nat) (obj : Obj Nat),
    (stateOn (envOf false) [] ops).objs[o]? = some (some obj) →
    ((stateOn (envOf false) [] ops).stepOn (envOf false) tid (.drop o true)).1 = .seen (.unit (.ok ()) false) := by
  intro h
  have := h ((oneExp .static [.returningSt 0 { run := fun _ as => .ok as.sum, tag := 7 }] []).map (0, ·)) 1 0 _ rfl
  have h2 : ((stateOn (envOf false) [] ((oneExp .static [.returningSt 0 { run := fun _ as => .ok as.sum, tag := 7 }]
      []).map (0, ·))).stepOn (envOf false) 1 (.drop 0 true)).1 = .aborted := rfl
  rw [h2] at this
  simp at this

section Examples

/-- A program of thread 0 but for a call made by thread 3, with single threaded closures for matcher and
return value: `C73_home` applies. -/
def homeProg : List (Nat × Op Nat) :=
  (oneExp .static [.withfSt 0 fun _ => .ok true, .returningSt 0 { run := fun _ as => .ok as.sum, tag := 7 }] []).map (0, ·) ++
    [(0, .call 0 0 0 0 [1, 2] id), (3, .call 0 0 0 3 [1] id), (0, .drop 0 false)]

theorem homeProg_home : Home 0 homeProg := by
  refine ⟨?_, ?_, ?_, ?_⟩
  · intro b hb t
    simp [homeProg, oneExp, buildsOf, Op.builds?] at hb
    rcases hb with rfl | rfl <;> simp [registeredOn] <;> exact fun h => h.symm
  · intro x hx
    simp [homeProg, oneExp] at hx
    rcases hx with rfl | rfl | rfl | rfl | rfl <;> simp [destroys]
  · intro t f hb
    simp [homeProg, oneExp, buildsOf, Op.builds?] at hb
  · intro b hb
    simp [homeProg, oneExp, buildsOf, Op.builds?] at hb
    rcases hb with rfl | rfl <;> simp [Raises]

example : (Sys.runOn (envOf false) homeProg (Sys.init [])).1.drop 2 =
    [.seen (.value (.ok 3)), .seen (.value (.error .fragile)), .seen (.unit (.error .poisoned) false)] := by rfl

/-- An object with an expectation of `withf_st` on thread 0 that wants 2 calls and got none. -/
def awayProg (bs : List (Build Nat)) : List (Nat × Op Nat) := (oneExp .static bs []).map (0, ·)

/-- Dropped at home, it reports the expectation; elsewhere the process aborts (`C73_unmet`). -/
example :
    let s := stateOn (envOf false) [] (awayProg [.withfSt 0 fun _ => .ok true, .times (.n 2)])
    (s.stepOn (envOf false) 0 (.drop 0 false)).1 =
      .seen (.unit (.error (.tooFewAtDrop "f" "<single threaded function>" 0 2)) false) ∧
    (s.stepOn (envOf false) 1 (.drop 0 false)).1 = .aborted := ⟨by rfl, by rfl⟩

example :
    let s := stateOn (envOf false) [] (awayProg [.withfSt 0 fun _ => .ok true, .times (.n 2)])
    ∃ mi e, s.infoOf (.inst 0 0 0) = some mi ∧ mi.generic = false ∧ e ∈ s.target (.inst 0 0 0) ∧
      e.drop false mi.base ≠ .ok () ∧ AwayIn s 1 e := by
  refine ⟨_, _, rfl, rfl, List.mem_singleton.mpr rfl, ?_, 0, by decide, .inl rfl⟩
  intro h
  rw [← Expectation.fault_none] at h
  have h2 : Option.isNone (none : Option Panic) = false := by rw [← h]; rfl
  simp at h2

/-- Satisfied expectations: one foreign closure panics, two abort. -/
example :
    ((stateOn (envOf false) [] (awayProg [.withfSt 0 fun _ => .ok true])).stepOn (envOf false) 1 (.drop 0 false)).1 =
      .wrongThread ∧
    ((stateOn (envOf false) [] (awayProg [.withfSt 0 fun _ => .ok true, .returnConstSt 0 5])).stepOn (envOf false) 1
      (.drop 0 false)).1 = .aborted ∧
    ((stateOn (envOf false) [] (awayProg [.withfSt 0 fun _ => .ok true, .withf fun _ => .ok true])).stepOn (envOf false) 1
      (.drop 0 false)).1 = .seen (.unit (.ok ()) false) := ⟨by rfl, by rfl, by rfl⟩

/-- A `return_once_st` closure is gone after the first call: the object may then be dropped anywhere. -/
example :
    let e : List (Build Nat) := [.returnOnceSt 0 { run := fun as => .ok as.sum, tag := 7 }]
    let s := stateOn (envOf false) [] (awayProg e)
    let s' := stateOn (envOf false) [] (awayProg e ++ [(0, .call 0 0 0 0 [1, 2] id)])
    (s.stepOn (envOf false) 1 (.drop 0 true)).1 = .aborted ∧
    (s'.stepOn (envOf false) 1 (.drop 0 true)).1 = .seen (.unit (.ok ()) false) := ⟨by rfl, by rfl⟩

/-- The hypotheses of `C73_once`: thread 1 calls first. -/
example : let ops := oneExp .static [.returnOnceSt 0 { run := fun as => .ok as.sum, tag := 7 }] []
    ∃ mi e, Answered (envOf false) [] ops (.inst 0 0 0) mi 1 [5] id e ∧ mi.base.kind = .static ∧
      returnSetter .static e.chain = some (.returnOnceSt 0 { run := fun as => .ok as.sum, tag := 7 }) ∧
      earlier (envOf false) [] ops e = [] :=
  ⟨_, _, ⟨⟨rfl, trivial⟩, List.mem_singleton.mpr rfl, rfl⟩, rfl, rfl, rfl⟩

/-- A static function with two expectations, the first unsatisfied, the second bound to thread 0. -/
example :
    let ops : List (Nat × Op Nat) := [(0, .sexpect 0 0 [.times (.n 1)]), (0, .sexpect 0 0 [.returnConstSt 0 5])]
    let s := stateOn (envOf false) [⟨false, ⟨.static, "f", "f", none⟩, fun _ => some 40⟩] ops
    (∃ sf, s.statics[0]? = some sf ∧ sf.mi.generic = false ∧ sf.poison = false) ∧
    (s.stepOn (envOf false) 0 (.scheckpoint 0)).1 = .seen (.unit (.error (.tooFewAtDrop "f" "<anything>" 0 1)) false) ∧
    (s.stepOn (envOf false) 1 (.scheckpoint 0)).1 = .aborted := ⟨⟨_, rfl, rfl, rfl⟩, by rfl, by rfl⟩

end Examples

end Mockall.Props
