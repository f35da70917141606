import Verif.Spec.Messages
import Verif.Lemmas.Drop
import Verif.Props.Object

/-! # C55: what panic messages say -/

set_option linter.unusedSimpArgs false

namespace Mockall.Props

open Spec

variable {V : Type}

theorem lastOf_origin {α β : Type} (g : α → Option β) (d : β) (l : List α) :
    lastOf g d l = d ∨ ∃ b ∈ l, g b = some (lastOf g d l) := by
  unfold lastOf
  rcases h : (l.filterMap g).getLast? with _ | x
  · exact .inl rfl
  · refine .inr ?_
    have hm := List.mem_of_getLast? h
    rw [List.mem_filterMap] at hm
    obtain ⟨b, hb, hg⟩ := hm
    exact ⟨b, hb, by simpa [h] using hg⟩

theorem display_describe (chain : List (Build V)) : (lastOf matcherOf .always chain).display = describe chain := by
  have hdec : ∀ b : Build V, descriptionOf b = (matcherOf b).map Matcher.display := by
    intro b
    cases b <;> rfl
  unfold describe lastOf
  have : chain.filterMap descriptionOf = (chain.filterMap matcherOf).map Matcher.display := by
    rw [List.map_filterMap]
    congr 1
    funext b
    exact hdec b
  rw [this, List.getLast?_map]
  cases (chain.filterMap matcherOf).getLast? <;> simp [Matcher.display]

/-- Where a panic of the matcher comes from. -/
theorem verdict_panic {tid : Nat} {args : List V} {chain : List (Build V)} {p : Panic}
    (h : Spec.verdict tid args chain = .error p) :
    (∃ b ∈ chain, Raises p b) ∨ (p = .fragile ∧ ∃ b ∈ chain, ∃ t, registeredOn b = some t ∧ t ≠ tid) := by
  rcases lastOf_origin (decision tid args) (.ok true) chain with hd | ⟨b, hb, hg⟩
  · unfold Spec.verdict at h; rw [hd] at h; simp at h
  · have hg' : decision tid args b = some (.error p) := by rw [hg]; exact congrArg some h
    cases b with
    | «with» ps =>
      simp only [decision, Option.some.injEq] at hg'
      refine .inl ⟨_, hb, ?_⟩
      clear hg hb h
      have : ∀ (l : List (Pred V × V)),
          l.foldr (fun pa r => do let b ← pa.1.eval pa.2; let c ← r; return b && c) (.ok true) = .error p →
          ∃ pa ∈ l, pa.1.eval pa.2 = .error p := by
        intro l
        induction l with
        | nil => intro h; simp at h
        | cons x l ih =>
          intro h
          rw [List.foldr_cons] at h
          rcases hx : x.1.eval x.2 with q | b
          · rw [hx] at h
            simp [bind, Except.bind] at h
            subst h
            exact ⟨x, by simp, hx⟩
          · rw [hx] at h
            rcases hl : l.foldr (fun pa r => do let b ← pa.1.eval pa.2; let c ← r; return b && c) (.ok true) with q | c
            · rw [hl] at h
              simp [bind, Except.bind] at h
              subst h
              obtain ⟨pa, hpa, he⟩ := ih hl
              exact ⟨pa, by simp [hpa], he⟩
            · rw [hl] at h
              simp [bind, Except.bind, pure, Except.pure] at h
      obtain ⟨⟨q, v⟩, hqv, he⟩ := this _ hg'
      exact ⟨q, (List.of_mem_zip hqv).1, v, he⟩
    | withf f =>
      simp only [decision, Option.some.injEq] at hg'
      exact .inl ⟨_, hb, args, hg'⟩
    | withfSt t f =>
      simp only [decision, Option.some.injEq] at hg'
      by_cases ht : tid = t
      · rw [if_pos ht] at hg'
        exact .inl ⟨_, hb, args, hg'⟩
      · rw [if_neg ht] at hg'
        simp at hg'
        exact .inr ⟨hg'.symm, _, hb, t, rfl, fun h => ht h.symm⟩
    | _ => simp [decision] at hg'

/-- Where a panic of a scan comes from. -/
theorem callScan_panic {cx : Cx V} {info : FnInfo V} {args : List V} {n : Nat} {es : List (Expectation V)}
    {w : World V} {p : Panic} (h : (callScan cx info args n es w).1 = .error p) :
    ∃ e ∈ es, (e.matches cx.tid args).1 = .error p ∨
      ((e.matches cx.tid args).1 = .ok true ∧
        (e.isDone = .error p ∨ (e.call cx info args w).1 = .error p)) := by
  induction es with
  | nil => simp [callScan] at h
  | cons e es ih =>
    unfold callScan at h
    rcases hm : e.matches cx.tid args with ⟨r, e'⟩
    rw [hm] at h
    rcases r with q | b
    · simp at h
      subst h
      exact ⟨e, by simp, .inl (by rw [hm])⟩
    · obtain ⟨rfl, _⟩ := Expectation.matches_ok hm
      cases b with
      | false =>
        simp only at h
        obtain ⟨x, hx, hr⟩ := ih h
        exact ⟨x, by simp [hx], hr⟩
      | true =>
        simp only at h
        rcases hd : e'.isDone with q | d
        · rw [hd] at h
          simp at h
          subst h
          exact ⟨e', by simp, .inr ⟨by rw [hm], .inl hd⟩⟩
        · rw [hd] at h
          simp only at h
          split at h
          · rcases hc : e'.call cx info args w with ⟨r, e'', w'⟩
            rw [hc] at h
            rcases r with q | v
            · simp at h
              subst h
              exact ⟨e', by simp, .inr ⟨by rw [hm], .inr (by rw [hc])⟩⟩
            · simp at h
          · obtain ⟨x, hx, hr⟩ := ih h
            exact ⟨x, by simp [hx], hr⟩

/-- Running the return function panics. -/
def RetPanics (nightly : Bool) (d : Option V) (tid : Nat) (args : List V) (p : Panic) : Ret V → Prop
  | .ref _ => False
  | .refMut r => (r.callMut nightly tid args).out = .error p
  | .static r _ => (r.callMut nightly d tid args).out = .error p

/-- Where a panic of a return function comes from: user code of the chain, or a foreign thread. -/
theorem ret_panic {kind : RetKind} {nightly : Bool} {info : FnInfo V} {chain : List (Build V)} {r : Ret V}
    (hl : (lastOf (retOf kind) (retDefault nightly info) chain).later r) (d : Option V) (tid : Nat) (args : List V)
    {p : Panic} : RetPanics nightly d tid args p r →
    (∃ b ∈ chain, Raises p b) ∨ ((p = .fragile ∨ p = .fragileMove) ∧ ∃ b ∈ chain, ∃ t, registeredOn b = some t ∧ t ≠ tid) := by
  intro h
  rcases lastOf_origin (retOf kind) (retDefault nightly info) chain with hd | ⟨b, hb, hg⟩
  · rw [hd] at hl
    unfold retDefault at hl
    rcases r with r | r | ⟨r, ps⟩
    · exact h.elim
    · split at hl <;> simp only [Ret.later] at hl
      rcases r with (_ | _) | _ | _ | _ <;> simp_all [RetPanics, RefMutRfunc.later, RefMutRfunc.callMut]
    · split at hl <;> simp only [Ret.later] at hl
      rcases r with _ | _ | _ | _ | _ | _ <;> simp_all [RetPanics, StaticRfunc.later, StaticRfunc.callMut]
  · generalize lastOf (retOf kind) (retDefault nightly info) chain = r0 at hg hl
    rcases r with r | r | ⟨r, ps⟩
    · exact h.elim
    · rcases r0 with r0 | r0 | ⟨r0, ps0⟩ <;> simp only [Ret.later] at hl
      simp only [RetPanics] at h
      rcases r with (_ | _) | ⟨f, o⟩ | ⟨t, f, o⟩ | _ <;> simp only [RefMutRfunc.callMut, reduceCtorEq] at h
      · rcases r0 with (_ | _) | ⟨f0, o0⟩ | ⟨t0, f0, o0⟩ | _ <;> simp only [RefMutRfunc.later] at hl
        have hf : f.run f.hist args = .error p := by
          simp only [Closure.call] at h
          split at h <;> simp_all
        cases b <;> cases kind <;> simp only [retOf, Option.some.injEq, reduceCtorEq, Ret.refMut.injEq,
          RefMutRfunc.mut.injEq] at hg
        rw [hl.1, ← hg.1] at hf
        exact .inl ⟨_, hb, _, _, hf⟩
      · rcases r0 with (_ | _) | ⟨f0, o0⟩ | ⟨t0, f0, o0⟩ | _ <;> simp only [RefMutRfunc.later] at hl
        cases b <;> cases kind <;> simp only [retOf, Option.some.injEq, reduceCtorEq, Ret.refMut.injEq,
          RefMutRfunc.mutSt.injEq] at hg
        obtain ⟨rfl, hl⟩ := hl
        by_cases ht : tid = t0
        · have hf : f.run f.hist args = .error p := by
            simp only [ht, if_true, Closure.call] at h
            split at h <;> simp_all
          rw [hl.1, ← hg.2.1] at hf
          exact .inl ⟨_, hb, _, _, hf⟩
        · simp only [ht, if_false] at h
          simp at h
          exact .inr ⟨.inl h.symm, _, hb, _, rfl, by rw [hg.1]; exact fun h => ht h.symm⟩
    · rcases r0 with r0 | r0 | ⟨r0, ps0⟩ <;> simp only [Ret.later] at hl
      simp only [RetPanics] at h
      rcases r with _ | _ | f | ⟨t, f⟩ | f | ⟨t, f⟩ <;> simp only [StaticRfunc.callMut, reduceCtorEq] at h
      · rcases r0 with _ | _ | f0 | ⟨t0, f0⟩ | f0 | ⟨t0, f0⟩ <;> simp only [StaticRfunc.later] at hl
        have hf : f.run f.hist args = .error p := by
          simp only [Closure.call] at h
          split at h <;> simp_all
        cases b <;> cases kind <;> simp only [retOf, Option.some.injEq, reduceCtorEq, false_and, Ret.static.injEq,
          StaticRfunc.mut.injEq] at hg
        · rw [hl.1, ← hg.1] at hf
          exact .inl ⟨_, hb, _, _, hf⟩
        · rw [hl.1, ← hg.1] at hf
          simp at hf
      · rcases r0 with _ | _ | f0 | ⟨t0, f0⟩ | f0 | ⟨t0, f0⟩ <;> simp only [StaticRfunc.later] at hl
        obtain ⟨rfl, hl⟩ := hl
        have hf : (tid = t0 ∧ f.run f.hist args = .error p) ∨ (tid ≠ t0 ∧ p = .fragile) := by
          by_cases ht : tid = t0
          · refine .inl ⟨ht, ?_⟩
            simp only [ht, if_true, Closure.call] at h
            split at h <;> simp_all
          · simp only [ht, if_false] at h
            simp at h
            exact .inr ⟨ht, h.symm⟩
        cases b <;> cases kind <;> simp only [retOf, Option.some.injEq, reduceCtorEq, false_and, Ret.static.injEq,
          StaticRfunc.mutSt.injEq] at hg
        · rcases hf with ⟨_, hf⟩ | ⟨ht, hf⟩
          · rw [hl.1, ← hg.1.2] at hf
            exact .inl ⟨_, hb, _, _, hf⟩
          · exact .inr ⟨.inl hf, _, hb, _, rfl, by rw [hg.1.1]; exact fun h => ht h.symm⟩
        · rcases hf with ⟨_, hf⟩ | ⟨ht, hf⟩
          · rw [hl.1, ← hg.1.2] at hf
            simp at hf
          · exact .inr ⟨.inl hf, _, hb, _, rfl, by rw [hg.1.1]; exact fun h => ht h.symm⟩
      · rcases r0 with _ | _ | f0 | ⟨t0, f0⟩ | f0 | ⟨t0, f0⟩ <;> simp only [StaticRfunc.later] at hl
        have hf : f.run args = .error p := by split at h <;> simp_all
        cases b <;> cases kind <;> simp only [retOf, Option.some.injEq, reduceCtorEq, false_and, Ret.static.injEq,
          StaticRfunc.once.injEq] at hg
        rw [← hl, ← hg.1] at hf
        exact .inl ⟨_, hb, _, hf⟩
      · rcases r0 with _ | _ | f0 | ⟨t0, f0⟩ | f0 | ⟨t0, f0⟩ <;> simp only [StaticRfunc.later] at hl
        obtain ⟨rfl, hl⟩ := hl
        cases b <;> cases kind <;> simp only [retOf, Option.some.injEq, reduceCtorEq, false_and, Ret.static.injEq,
          StaticRfunc.onceSt.injEq] at hg
        by_cases ht : tid = t0
        · have hf : f.run args = .error p := by
            simp only [ht, if_true] at h
            split at h <;> simp_all
          rw [← hl, ← hg.1.2] at hf
          exact .inl ⟨_, hb, _, hf⟩
        · simp only [ht, if_false] at h
          simp at h
          exact .inr ⟨.inr h.symm, _, hb, _, rfl, by rw [hg.1.1]; exact fun h => ht h.symm⟩

/-- A panic of `Expectation.call`, by the failing check. -/
theorem call_panic {cx : Cx V} {info : FnInfo V} {args : List V} {e : Expectation V} {w : World V} {p : Panic}
    (hpos : 0 < e.common.times.range.end_) (hcount : e.common.times.count < usizeMax)
    (h : (e.call cx info args w).1 = .error p) :
    p = .poisoned ∨
    (∃ m, p = .call info.funcname e.common.matcher.display m) ∨
    p = .seqViolation (callDesc cx info args) ∨
    (∃ m, p = .ret info.funcname e.common.matcher.display m) ∨
    RetPanics cx.nightly info.default cx.tid args p e.ret := by
  have hce := Common.call_eq info.funcname (callDesc cx info args) e.common w.seqs
  rcases Expectation.call_cases cx info args e w with ⟨q, hq, hc⟩ | ⟨hq, hc⟩
  · rw [hc] at h
    simp at h
    subst h
    -- a failed check
    unfold Common.call Times.call at hq
    have ha : addOne e.common.times.count = .ok (e.common.times.count + 1) := by
      unfold addOne; rw [if_neg (by omega)]
    have hs : subOne e.common.times.range.end_ = .ok (e.common.times.range.end_ - 1) := by
      unfold subOne; rw [if_neg (by omega)]
    simp only [ha, hs] at hq
    by_cases h1 : e.common.times.count + 1 ≥ e.common.times.range.end_
    · rw [if_pos h1] at hq
      by_cases h2 : e.common.times.range.end_ = 1
      · rw [if_pos h2] at hq
        simp only [Except.error.injEq] at hq
        split at hq
        · exact .inl hq.symm
        · exact .inr (.inl ⟨_, hq.symm⟩)
      · rw [if_neg h2] at hq
        simp only [Except.error.injEq] at hq
        split at hq
        · exact .inl hq.symm
        · exact .inr (.inl ⟨_, hq.symm⟩)
    · rw [if_neg h1] at hq
      simp only at hq
      rcases hsh : e.common.seqHandle with _ | sh
      · simp [Common.verifySequence, Common.satisfySequence, hsh] at hq
      · simp only [Common.verifySequence, Common.satisfySequence, hsh] at hq
        by_cases hv : (w.seqs sh.sid).level = sh.seq
        · simp [Seqs.verify, Seqs.satisfy, hv] at hq
          split at hq <;> simp at hq
        · have : ¬ sh.seq = (w.seqs sh.sid).level := fun h => hv h.symm
          simp [Seqs.verify, hv, this] at hq
          exact .inr (.inr (.inl hq.symm))
  · rw [hc] at h
    rw [hce] at h
    unfold Expectation.ret_call at h
    rcases hr : e.ret with r | r | ⟨r, ps⟩
    · simp only [hr] at h
      split at h
      · simp at h
      · simp at h
        split at h
        · exact .inl h.symm
        · exact .inr (.inr (.inr (.inl ⟨_, h.symm⟩)))
    · simp only [hr] at h
      split at h
      · simp at h; exact .inl h.symm
      · split at h
        · simp at h
        · simp only [Except.error.injEq] at h
          exact .inr (.inr (.inr (.inl ⟨_, h.symm⟩)))
        · rename_i q ho
          simp at h
          subst h
          exact .inr (.inr (.inr (.inr ho)))
    · simp only [hr] at h
      split at h
      · simp at h; exact .inl h.symm
      · split at h
        · simp at h
        · simp only [Except.error.injEq] at h
          split at h
          · exact .inl h.symm
          · exact .inr (.inr (.inr (.inl ⟨_, h.symm⟩)))
        · rename_i q ho
          simp at h
          subst h
          exact .inr (.inr (.inr (.inr ho)))

/-- **C55, calls** (partial: the exceptions are listed first).  After any program, if a call on any mocked
function panics then the message names the function and shows every argument in order (a call level
failure), or names the function and describes the matcher of one of the expectations on that
function (an expectation level failure), unless the panic is that of user code handed to one of these
expectations, of a single threaded closure used on another thread, or the `PoisonError` of a mutex
poisoned by an earlier panic.

Missing for the full statement: `PoisonError` names nothing; see `C55_refuted`. -/
theorem C55_call_partial (env : Env V) (sts : List (MethodInfo V)) (ops : List (Op V)) (c : Callee)
    (mi : MethodInfo V) (tid : Nat) (args : List V) (u : V → V) (p : Panic) :
    let s := (Sys.run env ops (Sys.init sts)).2
    s.infoOf c = some mi →
    s.world.log.length < usizeMax → (∀ e ∈ s.target c, Tame (countArg e.chain)) →
    (s.step env (c.op tid args u)).1 = .value (.error p) →
    p = .poisoned ∨
    (∃ e ∈ s.target c, ∃ b ∈ e.chain, Raises p b) ∨
    ((p = .fragile ∨ p = .fragileMove) ∧ ∃ e ∈ s.target c, ∃ b ∈ e.chain, ∃ t, registeredOn b = some t ∧ t ≠ tid) ∨
    p.render = callText mi.base.descname (args.map env.dbg) ++ ": No matching expectation found" ∨
    p.render = callText mi.base.descname (args.map env.dbg) ++ ": Method sequence violation" ∨
    (∃ e ∈ s.target c, ∃ why,
      p.render = mi.base.funcname ++ ": Expectation(" ++ describe e.chain ++ ") " ++ why) := by
  intro s hi hlen htame hobs
  by_cases hu : s.usable c mi
  · obtain ⟨h1, _, _, _⟩ := step_call env s c mi hu tid args u
    rw [h1] at hobs
    simp only [Obs.value.injEq] at hobs
    rcases hr : (Expectations.call ⟨env.nightly, tid, env.dbg, c.upd u⟩ (mi.fn c.key) args (s.target c) s.world).1
      with q | v
    · rw [hr] at hobs
      simp [expectMatch] at hobs
      subst hobs
      obtain ⟨e, he, hcase⟩ := callScan_panic hr
      have hL := (sysInv_run env sts ops).live e (target_all _ c e he)
      have hrange := hL.range
      rw [lastOf_countOf, (halfOpen_window (htame e he)).1] at hrange
      have hpos : 0 < e.common.times.range.end_ := by rw [hrange]; simp
      have hcnt : e.common.times.count < usizeMax := by
        have h2 := hL.count (Nat.le_of_lt hlen)
        have h3 := hits_le e.gid s.world.log
        have h4 : e.common.times.count = hits e.gid s.world.log := h2
        omega
      rcases hcase with hm | ⟨_, hd | hcall⟩
      · unfold Expectation.matches Common.matches at hm
        simp only at hm
        split at hm
        · simp at hm; exact .inl hm.symm
        · split at hm <;> simp at hm
          subst hm
          rename_i hm
          rw [hL.matcher, verdict_matches] at hm
          rcases verdict_panic hm with ⟨b, hb, hR⟩ | ⟨hf, b, hb, t, ht⟩
          · exact .inr (.inl ⟨e, he, b, hb, hR⟩)
          · exact .inr (.inr (.inl ⟨.inl hf, e, he, b, hb, t, ht⟩))
      · rw [Expectation.isDone_ok hpos] at hd
        simp at hd
      · rcases call_panic hpos hcnt hcall with h | ⟨m, h⟩ | h | ⟨m, h⟩ | h
        · exact .inl h
        · refine .inr (.inr (.inr (.inr (.inr ⟨e, he, m.render, ?_⟩))))
          rw [h, Panic.render, hL.matcher, display_describe]
          rfl
        · refine .inr (.inr (.inr (.inr (.inl ?_))))
          rw [h]
          rfl
        · refine .inr (.inr (.inr (.inr (.inr ⟨e, he, m.render, ?_⟩))))
          rw [h, Panic.render, hL.matcher, display_describe]
          rfl
        · rcases ret_panic hL.ret.1 _ tid args h with ⟨b, hb, hR⟩ | ⟨hf, b, hb, t, ht⟩
          · exact .inr (.inl ⟨e, he, b, hb, hR⟩)
          · exact .inr (.inr (.inl ⟨hf, e, he, b, hb, t, ht⟩))
    · rw [hr] at hobs
      cases v with
      | none =>
        simp [expectMatch] at hobs
        subst hobs
        exact .inr (.inr (.inr (.inl rfl)))
      | some v => simp [expectMatch] at hobs
  · cases c with
    | inst o m k => exact (hu ⟨hi, trivial⟩).elim
    | stat f k =>
      have : ∃ sf, s.statics[f]? = some sf ∧ sf.poison = true := by
        apply Classical.byContradiction
        intro hn
        refine hu ⟨hi, fun sf hsf => ?_⟩
        cases hp : sf.poison with
        | false => rfl
        | true => exact (hn ⟨sf, hsf, hp⟩).elim
      obtain ⟨sf, hsf, hp⟩ := this
      simp [Callee.op, Sys.step, hsf, StaticFn.call, hp] at hobs
      exact .inl hobs.symm

/-! ## Verification -/

/-- A panic of dropping one expectation. -/
theorem drop_panic {env : Env V} {sts : List (MethodInfo V)} {ops : List (Op V)} {info : FnInfo V}
    {e : Expectation V} {p : Panic} (he : e ∈ (Sys.run env ops (Sys.init sts)).2.all)
    (hlen : (logOf env sts ops).length < usizeMax) (ht : Tame (countArg e.chain))
    (h : e.drop false info = .error p) :
    p = .poisoned ∨ Unmet info.funcname (describe e.chain) (window (countArg e.chain)).1
      (window (countArg e.chain)).2 (callsTo env sts ops e) p.render := by
  have hL := (sysInv_run env sts ops).live e he
  have hr := hL.range
  rw [lastOf_countOf] at hr
  have hc : e.common.times.count = callsTo env sts ops e := hL.count (Nat.le_of_lt hlen)
  obtain ⟨hw, hle⟩ := halfOpen_window ht
  rw [hw] at hr
  simp only [Expectation.drop, Common.drop, Bool.false_eq_true, if_false, Times.isSatisfied, hr, hc, hL.matcher,
    Times.minimum, Times.maximum, subOne, display_describe] at h
  split at h
  · simp at h; exact .inl h.symm
  · by_cases h1 : (window (countArg e.chain)).1 ≤ callsTo env sts ops e
    · by_cases h2 : callsTo env sts ops e < (window (countArg e.chain)).2 + 1
      · simp [h1, h2] at h
      · simp [h1, h2] at h
        subst h
        exact .inr (.inr ⟨by omega, rfl⟩)
    · simp [h1] at h
      subst h
      exact .inr (.inl ⟨by omega, rfl⟩)

/-- The functions whose expectations an operation verifies. -/
def Verifies : Op V → Callee → Prop
  | .checkpoint o, .inst o' _ _ => o' = o
  | .drop o _, .inst o' _ _ => o' = o
  | .scheckpoint f, .stat f' _ => f' = f
  | .sdrop f _, .stat f' _ => f' = f
  | .mcheckpoint fs, .stat f' _ => f' ∈ fs
  | _, _ => False

/-- Operations that verify. -/
def Op.verifying : Op V → Bool
  | .checkpoint _ => true
  | .drop _ _ => true
  | .scheckpoint _ => true
  | .sdrop _ _ => true
  | .mcheckpoint _ => true
  | _ => false

theorem verdict_error {α : Type} {l : List α} {f : α → Option Panic} {p : Panic}
    (h : verdict (l.findSome? f) = .error p) : ∃ x ∈ l, f x = some p := by
  rcases hf : l.findSome? f with _ | q
  · rw [hf] at h; simp [verdict] at h
  · rw [hf] at h
    simp [verdict] at h
    subst h
    obtain ⟨x, hx, hp⟩ := List.exists_of_findSome?_eq_some hf
    exact ⟨x, hx, hp⟩

theorem Store.drained_elems {env : Env V} (hf : env.Fair) (st : Store V) : st.drained.elems env = [] := by
  cases st with
  | concrete es => rfl
  | generic m =>
    have h : env.ord [] = [] := (hf []).eq_nil
    show (env.ord []).flatMap (·.2) = []
    rw [h]
    rfl

/-- A panic of a module's checkpoint is a poisoned mutex or comes from an expectation of one of its functions. -/
theorem checkpointModule_panic {env : Env V} (hf : env.Fair) {fs : List Nat} {sts : List (StaticFn V)} {p : Panic}
    {ab : Bool} (h : (checkpointModule env fs sts).1 = some (.error p, ab)) :
    p = .poisoned ∨ ∃ f ∈ fs, ∃ sf, sts[f]? = some sf ∧ ∃ e ∈ sf.store.elems env, e.fault sf.mi.base = some p := by
  induction fs generalizing sts with
  | nil => simp [checkpointModule] at h
  | cons f fs ih =>
    unfold checkpointModule at h
    rcases hsf : sts[f]? with _ | sf
    · rw [hsf] at h; simp at h
    · rw [hsf] at h
      simp only at h
      rw [StaticFn.checkpoint_eq] at h
      by_cases hp : sf.poison = true
      · simp [hp] at h
        exact .inl h.1.symm
      · simp only [hp, if_false, Bool.false_eq_true] at h
        rcases hv : verdict ((sf.store.elems env).findSome? (·.fault sf.mi.base)) with q | ⟨⟩
        · rw [hv] at h
          simp at h
          obtain ⟨rfl, _⟩ := h
          obtain ⟨e, he, hfe⟩ := verdict_error hv
          exact .inr ⟨f, by simp, sf, hsf, e, he, hfe⟩
        · rw [hv] at h
          simp only at h
          rcases ih h with h | ⟨f', hf', sf', hsf', e, he, hfe⟩
          · exact .inl h
          · rcases set_cases hsf' with ⟨_, h2⟩ | h2
            · subst h2
              rw [Store.drained_elems hf] at he
              simp at he
            · exact .inr ⟨f', by simp [hf'], sf', h2, e, he, hfe⟩

/-- **C55, verification** (partial: the exception is listed first).  After any program, if a checkpoint or the
drop of an object, of a context or of a module's functions panics, then the message names a function
that was verified, describes the matcher of one of its expectations, and states the number of calls that
expectation got and the bound they violate; unless it is the `PoisonError` of a mutex poisoned by an
earlier panic (see `C55_refuted`). -/
theorem C55_verify_partial (env env' : Env V) (hf : env'.Fair) (sts : List (MethodInfo V)) (ops : List (Op V))
    (op : Op V) (p : Panic) (ab : Bool) :
    let s := (Sys.run env ops (Sys.init sts)).2
    (logOf env sts ops).length < usizeMax → (∀ c, ∀ e ∈ s.target c, Tame (countArg e.chain)) →
    Op.verifying op = true → (s.step env' op).1 = .unit (.error p) ab →
    p = .poisoned ∨ ∃ c mi, Verifies op c ∧ s.infoOf c = some mi ∧ ∃ e ∈ s.target c,
      Unmet mi.base.funcname (describe e.chain) (window (countArg e.chain)).1 (window (countArg e.chain)).2
        (callsTo env sts ops e) p.render := by
  intro s hlen htame hv hobs
  -- an object
  have hobj : ∀ o obj, s.objs[o]? = some (some obj) →
      verdict ((obj.order env').findSome? fun x => x.2.fault x.1) = .error p →
      p = .poisoned ∨ ∃ m k mi, s.infoOf (.inst o m k) = some mi ∧ ∃ e ∈ s.target (.inst o m k),
        Unmet mi.base.funcname (describe e.chain) (window (countArg e.chain)).1 (window (countArg e.chain)).2
          (callsTo env sts ops e) p.render := by
    intro o obj ho h
    obtain ⟨⟨i, e⟩, hx, hfe⟩ := verdict_error h
    simp only [Obj.order, List.mem_flatMap, List.mem_map] at hx
    obtain ⟨sl, hsl, e', he', heq⟩ := hx
    simp at heq
    obtain ⟨rfl, rfl⟩ := heq
    obtain ⟨m, hm⟩ := List.getElem?_of_mem hsl
    have hs := (sorted_run env sts ops).objs o obj ho m sl hm
    obtain ⟨k, hk⟩ := (Store.mem_all_target hs.keys e').mp ((Store.mem_elems hf _ _).mp he')
    have ht : e' ∈ s.target (.inst o m k) := by simp only [Sys.target, ho, hm]; exact hk
    rcases drop_panic (target_all _ _ e' ht) hlen (htame _ e' ht) (Expectation.fault_some.mp hfe) with h | h
    · exact .inl h
    · exact .inr ⟨m, k, sl.mi, by simp [Sys.infoOf, ho, hm], e', ht, h⟩
  -- a static function
  have hstat : ∀ f sf, s.statics[f]? = some sf → (∃ e ∈ sf.store.elems env', e.fault sf.mi.base = some p) →
      p = .poisoned ∨ ∃ k mi, s.infoOf (.stat f k) = some mi ∧ ∃ e ∈ s.target (.stat f k),
        Unmet mi.base.funcname (describe e.chain) (window (countArg e.chain)).1 (window (countArg e.chain)).2
          (callsTo env sts ops e) p.render := by
    rintro f sf hsf ⟨e, he, hfe⟩
    have hs := (sorted_run env sts ops).statics f sf hsf
    obtain ⟨k, hk⟩ := (Store.mem_all_target hs.keys e).mp ((Store.mem_elems hf _ _).mp he)
    have ht : e ∈ s.target (.stat f k) := by simp only [Sys.target, hsf]; exact hk
    rcases drop_panic (target_all _ _ e ht) hlen (htame _ e ht) (Expectation.fault_some.mp hfe) with h | h
    · exact .inl h
    · exact .inr ⟨k, sf.mi, by simp [Sys.infoOf, hsf], e, ht, h⟩
  have hcheck : ∀ f sf, s.statics[f]? = some sf → (sf.checkpoint env' false).1.1 = .error p →
      p = .poisoned ∨ ∃ k mi, s.infoOf (.stat f k) = some mi ∧ ∃ e ∈ s.target (.stat f k),
        Unmet mi.base.funcname (describe e.chain) (window (countArg e.chain)).1 (window (countArg e.chain)).2
          (callsTo env sts ops e) p.render := by
    intro f sf hsf h
    rw [StaticFn.checkpoint_eq] at h
    split at h
    · simp at h; exact .inl h.symm
    · exact hstat f sf hsf (verdict_error h)
  cases op with
  | checkpoint o =>
    rcases ho : s.objs[o]? with _ | _ | obj
    · simp [Sys.step, ho] at hobs
    · simp [Sys.step, ho] at hobs
    · rw [step_checkpoint _ _ _ _ ho, Obj.checkpoint_eq] at hobs
      simp only [Obs.unit.injEq] at hobs
      rcases hobj o obj ho hobs.1 with h | ⟨m, k, mi, h⟩
      · exact .inl h
      · exact .inr ⟨.inst o m k, mi, rfl, h⟩
  | drop o pk =>
    rcases ho : s.objs[o]? with _ | _ | obj
    · simp [Sys.step, ho] at hobs
    · simp [Sys.step, ho] at hobs
    · rw [step_drop _ _ _ _ _ ho] at hobs
      cases pk with
      | true => rw [Obj.drop_panicking] at hobs; simp at hobs
      | false =>
        rw [Obj.drop_eq] at hobs
        simp only [Obs.unit.injEq] at hobs
        rcases hobj o obj ho hobs.1 with h | ⟨m, k, mi, h⟩
        · exact .inl h
        · exact .inr ⟨.inst o m k, mi, rfl, h⟩
  | scheckpoint f =>
    rcases hsf : s.statics[f]? with _ | sf
    · simp [Sys.step, hsf] at hobs
    · simp only [Sys.step, hsf, Obs.unit.injEq] at hobs
      rcases hcheck f sf hsf hobs.1 with h | ⟨k, mi, h⟩
      · exact .inl h
      · exact .inr ⟨.stat f k, mi, rfl, h⟩
  | sdrop f pk =>
    rcases hsf : s.statics[f]? with _ | sf
    · simp [Sys.step, hsf] at hobs
    · simp only [Sys.step, hsf, Obs.unit.injEq] at hobs
      cases pk with
      | true =>
        simp only [StaticFn.dropContext, if_true, dropAll_panicking] at hobs
        simp at hobs
      | false =>
        rcases hcheck f sf hsf (by simpa [StaticFn.dropContext] using hobs.1) with h | ⟨k, mi, h⟩
        · exact .inl h
        · exact .inr ⟨.stat f k, mi, rfl, h⟩
  | mcheckpoint fs =>
    simp only [Sys.step] at hobs
    rcases hr : (checkpointModule env' fs s.statics).1 with _ | ⟨r, a⟩
    · rw [hr] at hobs; simp at hobs
    · rw [hr] at hobs
      simp only [Obs.unit.injEq] at hobs
      rw [hobs.1] at hr
      rcases checkpointModule_panic hf hr with h | ⟨f, hfm, sf, hsf, h⟩
      · exact .inl h
      · rcases hstat f sf hsf h with h | ⟨k, mi, h⟩
        · exact .inl h
        · exact .inr ⟨.stat f k, mi, hfm, h⟩
  | _ => simp [Op.verifying] at hv

theorem Obj.mem_listing {env : Env V} {i : Nat} {obj : Obj V} {x : Nat × Key × Expectation V}
    (h : x ∈ obj.listing env i) : ∃ s ∈ obj, x.2.2 ∈ s.store.elems env := by
  induction obj generalizing i with
  | nil => simp [Obj.listing] at h
  | cons s ss ih =>
    simp only [Obj.listing, List.mem_append, List.mem_map] at h
    rcases h with ⟨y, hy, rfl⟩ | h
    · refine ⟨s, by simp, ?_⟩
      rw [← Store.listing_elems]
      exact List.mem_map_of_mem hy
    · obtain ⟨s', hs', he⟩ := ih h
      exact ⟨s', by simp [hs'], he⟩

/-- **C25** with what fails and the message spelled out: after any program in which the matchers of the
object's expectations did not panic, `checkpoint()` and drop complete if every expectation of the
object got a permitted number of calls, and otherwise panic once, with the text for the first
expectation in the order of `C25_first` whose number of calls is not permitted. -/
theorem C25_message (env : Env V) (hf : env.Fair) (sts : List (MethodInfo V)) (ops : List (Op V)) (o : Nat)
    (hlive : ∃ obj, (Sys.run env ops (Sys.init sts)).2.objs[o]? = some (some obj))
    (hlen : (logOf env sts ops).length < usizeMax)
    (hcalm : ∀ m k, ∀ e ∈ (Sys.run env ops (Sys.init sts)).2.target (.inst o m k),
      Peaceful ops e ∧ Tame (countArg e.chain)) :
    let s := (Sys.run env ops (Sys.init sts)).2
    let fine (e : Expectation V) := permits (countArg e.chain) (callsTo env sts ops e)
    ∃ (r : Except Panic Unit) (L : List (Nat × Key × Expectation V)) (g : Nat → FnInfo V),
      nextObs env sts ops (.checkpoint o) = .unit r false ∧
      nextObs env sts ops (.drop o false) = .unit r false ∧
      ((r = .ok () ∧ ∀ x ∈ L, fine x.2.2) ∨
        ∃ a x b p, L = a ++ x :: b ∧ (∀ y ∈ a, fine y.2.2) ∧ ¬ fine x.2.2 ∧ r = .error p ∧
          Unmet (g x.1).funcname (describe x.2.2.chain) (window (countArg x.2.2.chain)).1
            (window (countArg x.2.2.chain)).2 (callsTo env sts ops x.2.2) p.render) ∧
      (L.map (·.1)).Pairwise (· ≤ ·) ∧
      (∀ m k mi, s.infoOf (.inst o m k) = some mi → g m = mi.base ∧
        (L.filter fun x => x.1 == m && (!mi.generic || x.2.1 == k)).map (·.2.2) = s.target (.inst o m k)) := by
  intro s fine
  obtain ⟨obj, ho⟩ := id hlive
  obtain ⟨r, g, h1, h2, h3, h4, h5⟩ := C25_core env hf sts ops o obj ho
  refine ⟨r, obj.listing env 0, g, h1, h2, ?_, h4, h5⟩
  have hmem : ∀ x ∈ obj.listing env 0, x.2.2 ∈ s.all ∧ Peaceful ops x.2.2 ∧ Tame (countArg x.2.2.chain) := by
    intro x hx
    obtain ⟨sl, hsl, he⟩ := Obj.mem_listing hx
    obtain ⟨m, hm⟩ := List.getElem?_of_mem hsl
    have hs := (sorted_run env sts ops).objs o obj ho m sl hm
    obtain ⟨k, hk⟩ := (Store.mem_all_target hs.keys x.2.2).mp ((Store.mem_elems hf _ _).mp he)
    have ht : x.2.2 ∈ s.target (.inst o m k) := by
      change s.objs[o]? = _ at ho
      simp only [Sys.target, ho, hm]; exact hk
    exact ⟨target_all _ _ _ ht, hcalm m k _ ht⟩
  have hok : ∀ x ∈ obj.listing env 0, ∀ i, (x.2.2.drop false i = .ok () ↔ fine x.2.2) := by
    intro x hx i
    obtain ⟨ha, hp, _⟩ := hmem x hx
    exact C02_verdict env sts ops i x.2.2 ha hlen hp
  rcases h3 with ⟨hr, hall⟩ | ⟨a, x, b, p, hL, ha, hx, hr⟩
  · exact .inl ⟨hr, fun x hx => (hok x hx _).mp (hall x hx)⟩
  · have hxm : x ∈ obj.listing env 0 := by rw [hL]; simp
    have hx : x.2.2.drop false (g x.1) = .error p := hx
    have hbad : ¬ fine x.2.2 := by
      intro h
      rw [(hok x hxm (g x.1)).mpr h] at hx
      simp at hx
    refine .inr ⟨a, x, b, p, hL, fun y hy => (hok y (by rw [hL]; simp [hy]) _).mp (ha y hy), hbad, hr, ?_⟩
    obtain ⟨hall, hpeace, htame⟩ := hmem x hxm
    rcases drop_panic hall hlen htame hx with h | h
    · subst h
      -- the matcher is not poisoned
      exfalso
      have hm := C02_message env sts ops (g x.1) x.2.2 hall hlen htame hpeace
      obtain ⟨_, hle⟩ := halfOpen_window htame
      rcases Nat.lt_or_ge (callsTo env sts ops x.2.2) (window (countArg x.2.2.chain)).1 with hlt | hge
      · have := hm.1 hlt
        rw [hx] at this
        simp at this
      · rcases Nat.lt_or_ge (window (countArg x.2.2.chain)).2 (callsTo env sts ops x.2.2) with hgt | hle2
        · have := hm.2 hgt
          rw [hx] at this
          simp at this
        · exact hbad ((window_permits _ htame _
            (Nat.lt_of_le_of_lt List.countP_le_length hlen)).mpr ⟨hge, hle2⟩)
    · exact h

/-- **C55, arguments**: the arguments of a failed call appear in order, each by its `Debug` form, or as `?`
if its type has none. -/
theorem C55_args (env : Env V) (debug : V → Option String) (h : env.dbg = argPrinter debug) (name : String)
    (args : List V) :
    callText name (args.map env.dbg) = name ++ "(" ++ ", ".intercalate (args.map (shownAs ∘ debug)) ++ ")" := by
  have : env.dbg = shownAs ∘ debug := by
    rw [h]
    funext v
    simp only [argPrinter, Function.comp]
    cases debug v <;> rfl
  rw [callText, this]

/-- One argument with a `Debug` form, one without. -/
example : callText "MockFoo::foo" ([5, 0].map (argPrinter fun n : Nat => if n = 0 then none else some (toString n))) =
    "MockFoo::foo(5, ?)" := by decide +kernel

/-! ## What the messages do not say -/

/-- The message is the same whatever the function is called, and does not contain its name. -/
def Anonymous (name : String) (msg : String) : Prop := ¬ Mentions msg name

theorem mentions_iff {m p : String} : Mentions m p ↔ p.toList <:+: m.toList := by
  constructor
  · rintro ⟨a, b, rfl⟩
    exact ⟨a.toList, b.toList, by simp⟩
  · rintro ⟨a, b, h⟩
    refine ⟨String.ofList a, String.ofList b, ?_⟩
    apply String.toList_inj.mp
    simp [← h]

/-- **C55 is false as stated**: three of mockall's own panics do not name the function.  For a function
with any name: `times(2..1)` says `Backwards range`, `in_sequence` without an exact count says `Only
Expectations with an exact call count have sequences`, and a call after the argument matcher panicked
says `PoisonError`; none of them mentions, for instance, `MockFoo::foo`. -/
theorem C55_refuted (mi : MethodInfo Nat) (hg : mi.generic = false) :
    let run (ops : List (Op Nat)) (op : Op Nat) :=
      ((Sys.run (envOf false) (.new [mi] :: ops) (Sys.init [])).2.step (envOf false) op).1
    let range := Panic.backwardsRange
    let exact := Panic.onlyExact
    let poison := Panic.poisoned
    run [] (.expect 0 0 0 [.times (.range 2 1)]) = .unit (.error range) false ∧
    run [] (.expect 0 0 0 [.inSequence 0]) = .unit (.error exact) false ∧
    run [.expect 0 0 0 [.withf fun _ => .error (.user "boom")], .call 0 0 0 0 [1] id] (.call 0 0 0 0 [1] id) =
      .value (.error poison) ∧
    Anonymous "MockFoo::foo" range.render ∧ Anonymous "MockFoo::foo" exact.render ∧
    Anonymous "MockFoo::foo" poison.render := by
  obtain ⟨g, b, d⟩ := mi
  obtain rfl : g = false := hg
  refine ⟨rfl, rfl, ?_, ?_, ?_, ?_⟩
  · rcases b with ⟨k, f, n, dv⟩
    cases k <;> rfl
  all_goals
    unfold Anonymous
    rw [mentions_iff]
    decide +kernel

/-! ## The hypotheses are met -/

section Examples

/-- A program with a generic and a plain method and a sequence; then calls that fail in different ways. -/
def talkative : List (Op Nat) :=
  let mi : MethodInfo Nat := ⟨false, ⟨.static, "MockFoo::foo", "MockFoo::foo", none⟩, fun _ => none⟩
  let mg : MethodInfo Nat := ⟨true, ⟨.static, "MockFoo::bar", "MockFoo::bar", none⟩, fun _ => none⟩
  [.new [mi, mg],
   .expect 0 0 0 [.with [⟨fun v => .ok (v == 1), "var == 1"⟩], .once, .returnConst 5],
   .expect 0 1 3 [.withfSt 0 fun as => .ok (as == [2])],
   .expect 0 1 4 [.returning { run := fun _ _ => .error (.user "boom") }],
   .call 0 0 0 0 [1] id]

def talk (op : Op Nat) : Obs Nat := ((Sys.run (envOf false) talkative (Sys.init [])).2.step (envOf false) op).1

example : (Sys.run (envOf false) talkative (Sys.init [])).2.infoOf (.inst 0 0 0) =
      some ⟨false, ⟨.static, "MockFoo::foo", "MockFoo::foo", none⟩, fun _ => none⟩ ∧
    (Sys.run (envOf false) talkative (Sys.init [])).2.world.log.length < usizeMax ∧
    ((Sys.run (envOf false) talkative (Sys.init [])).2.target (.inst 0 0 0)).map (fun e => countArg e.chain) = [.n 1] ∧
    talk (.call 0 0 0 0 [1] id) = .value (.error (.call "MockFoo::foo" "var == 1" (.tooMany 2 1))) :=
  ⟨rfl, by decide, rfl, rfl⟩

/-- The other failures: no match, a foreign thread, user code, a failed verification. -/
example : talk (.call 0 0 0 0 [7] id) = .value (.error (.noMatch "MockFoo::foo(7)")) := by rfl
example : talk (.call 0 1 3 1 [7] id) = .value (.error .fragile) := by rfl
example : talk (.call 0 1 4 1 [7] id) = .value (.error (.user "boom")) := by rfl
example : talk (.call 0 1 3 0 [2] id) =
    .value (.error (.ret "MockFoo::bar" "<single threaded function>" .needNightly)) := by rfl
example : ((Sys.run (envOf false) (talkative.take 2) (Sys.init [])).2.step (envOf false) (.drop 0 false)).1 =
    .unit (.error (.tooFewAtDrop "MockFoo::foo" "var == 1" 0 1)) false := by rfl

/-- `progBad` meets the hypotheses of `C25_message`, and two of its expectations fail. -/
example : (∃ obj, (Sys.run (envOf false) progBad (Sys.init [])).2.objs[0]? = some (some obj)) ∧
    (logOf (envOf false) [] progBad).length < usizeMax ∧
    ((Sys.run (envOf false) progBad (Sys.init [])).2.all.map fun e =>
      (countArg e.chain, (e.chain.filterMap matcherOf).length, callsTo (envOf false) [] progBad e)) =
      [(.n 1, 0, 1), (.n 2, 0, 1), (.n 3, 0, 0), (.n 1, 0, 0)] :=
  ⟨⟨_, rfl⟩, by decide, rfl⟩

end Examples

end Mockall.Props
