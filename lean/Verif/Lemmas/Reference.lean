import Verif.Spec.Reference
import Verif.Lemmas.Ret
import Verif.Lemmas.Drop

/-! # Helper lemmas: the runtime follows the reference semantics -/

set_option linter.unusedSimpArgs false

namespace Mockall

open Spec

variable {V : Type}

/-- The state of the return function of an expectation of the reference. -/
def RefRet (nightly : Bool) (fn : FnInfo V) (r : Ref.Exp V) (x : Ret V) : Prop :=
  let d := if nightly then fn.default else none
  match fn.kind with
  | .ref =>
    match r.answer .ref with
    | some (.returnConst v) => x = .ref (.const v)
    | _ => x = .ref (.dflt d)
  | .refMut =>
    match r.answer .refMut with
    | some (.returning f) => ∃ o, x = .refMut (.mut { f with hist := f.hist ++ r.past } o)
    | some (.returningSt t f) => ∃ o, x = .refMut (.mutSt t { f with hist := f.hist ++ r.past } o)
    | some (.returnVar v) => x = .refMut (.var (r.written.getD v))
    | _ => x = .refMut (.dflt (d.map (r.written.getD ·)))
  | .static =>
    if r.badReturn then ∃ y, x = .static y true else
    match r.answer .static with
    | some (.returning f) => x = .static (.mut { f with hist := f.hist ++ r.past }) false
    | some (.returningSt t f) => x = .static (.mutSt t { f with hist := f.hist ++ r.past }) false
    | some (.returnConst v) => x = .static (.mut { run := fun _ _ => .ok v, hist := r.past }) false
    | some (.returnConstSt t v) => x = .static (.mutSt t { run := fun _ _ => .ok v, hist := r.past }) false
    | some (.returnOnce f) => x = .static (if r.past = [] then .once f else .expired) false
    | some (.returnOnceSt t f) => x = .static (if r.past = [] then .onceSt t f else .expired) false
    | _ => x = .static .dflt false

structure RefSim (nightly : Bool) (fn : FnInfo V) (n : Nat) (e : Expectation V) (r : Ref.Exp V) : Prop where
  few : r.attempts ≤ n
  poison : e.common.mpoison = r.badMatcher
  count : e.common.times.count = r.attempts
  range : e.common.times.range = ⟨r.lo, r.top⟩
  matcher : e.common.matcher = lastOf matcherOf .always r.chain
  seq : e.common.seqHandle = r.place.map fun x => ⟨x.1, x.2⟩
  ret : RefRet nightly fn r e.ret

theorem sets_iff (kind : RetKind) (b : Build V) : Ref.sets kind b = (retOf kind b).isSome := by
  cases kind <;> cases b <;> rfl

theorem answer_eq (kind : RetKind) (r : Ref.Exp V) : r.answer kind = returnSetter kind r.chain := by
  unfold Ref.Exp.answer returnSetter
  congr 2
  funext b
  exact sets_iff kind b

/-- A new expectation. -/
theorem RefRet.start {nightly : Bool} {fn : FnInfo V} {r : Ref.Exp V} {x : Ret V}
    (h : x = lastOf (retOf fn.kind) (retDefault nightly fn) r.chain)
    (h1 : r.past = []) (h2 : r.written = none) (h3 : r.badReturn = false) : RefRet nightly fn r x := by
  rw [lastOf_setter] at h
  unfold RefRet
  rcases hk : fn.kind with _ | _ | _ <;> simp only [answer_eq, hk] at h ⊢ <;>
    rcases ha : returnSetter _ r.chain with _ | b <;> simp only [ha] at h ⊢ <;>
    first
    | (have := (returnSetter_mem ha).2
       cases b <;> simp [retOf] at this <;> simp [h, retOf, h1, h2, h3])
    | (simp [h, retDefault, hk, h2, h3])

/-- What a builder call that is refused does. -/
theorem build_refuse {b : Build V} {e : Expectation V} {r : Ref.Exp V} {p : Panic} (q : Seqs)
    (hr : e.common.times.range = ⟨r.lo, r.top⟩) (h : r.refuse b = some p) :
    (e.build b q).1 = .error p := by
  cases b <;> simp only [Ref.Exp.refuse, reduceCtorEq] at h
  · rename_i a
    simp only [Expectation.build, Times.times]
    cases a <;> simp only [Ref.refuseTimes, reduceCtorEq] at h <;>
      simp only [TimesRange.from, addOne, bind, Except.bind] <;> (repeat' split at h) <;> simp at h <;> subst h
    all_goals simp_all
    all_goals (try omega)
    all_goals (first | (rw [if_neg (by omega)]) | (rw [if_pos (by omega)]) )
  · have hne : r.top ≠ r.lo + 1 → e.common.times.isExact = false := by
      intro hx
      simp only [Times.isExact, hr, decide_eq_false_iff_not]
      omega
    simp only [Expectation.build, Common.inSequence]
    by_cases hx : r.top = r.lo + 1
    · rw [if_pos hx] at h; cases h
    · rw [if_neg hx] at h
      cases h
      simp [hne hx]

theorem build_accept {b : Build V} {e : Expectation V} {r : Ref.Exp V}
    (hr : e.common.times.range = ⟨r.lo, r.top⟩) (h : r.refuse b = none) :
    okCond e.common.times b = true := by
  cases b <;> simp only [okCond]
  · rename_i a
    simp only [Ref.Exp.refuse] at h
    cases a <;> simp only [Ref.refuseTimes] at h <;>
      simp only [TimesRange.from, addOne, bind, Except.bind] <;> (repeat' split at h) <;> simp at h <;> simp_all
    all_goals (try split) <;> (try simp_all [pure, Except.pure])
    all_goals (try omega)
  · simp only [Ref.Exp.refuse] at h
    by_cases hx : r.top = r.lo + 1
    · simp only [Times.isExact, hr, decide_eq_true_eq]
      omega
    · rw [if_neg hx] at h; cases h


/-- The sequences. -/
def RefSeqs (q : Seqs) (joined turn : Ref.Counts) : Prop := ∀ i, q i = ⟨turn i, joined i⟩

theorem RefSim.start {nightly : Bool} {fn : FnInfo V} {e : Expectation V} {r : Ref.Exp V}
    (hc : Cfg nightly fn e) (hch : e.chain = r.chain)
    (hpl : e.common.seqHandle = r.place.map fun x => ⟨x.1, x.2⟩)
    (h1 : r.attempts = 0) (h2 : r.past = []) (h3 : r.written = none) (h4 : r.badMatcher = false)
    (h5 : r.badReturn = false) (n : Nat) : RefSim nightly fn n e r where
  few := by omega
  poison := by rw [hc.poison, h4]
  count := by rw [hc.count, h1]
  range := by rw [hc.range, hch, lastOf_countOf]; rfl
  matcher := by rw [hc.matcher, hch]
  seq := hpl
  ret := RefRet.start (by rw [hc.ret, hch]) h2 h3 h5

theorem configure_sim {nightly : Bool} {fn : FnInfo V} (bs : List (Build V)) {e : Expectation V} {r : Ref.Exp V}
    {q : Seqs} {joined turn : Ref.Counts} (hc : Cfg nightly fn e) (hch : e.chain = r.chain)
    (hpl : e.common.seqHandle = r.place.map fun x => ⟨x.1, x.2⟩)
    (h1 : r.attempts = 0) (h2 : r.past = []) (h3 : r.written = none) (h4 : r.badMatcher = false)
    (h5 : r.badReturn = false) (hq : RefSeqs q joined turn) (n : Nat) :
    (e.builds bs q).1 = (r.configure joined bs).1 ∧
    RefSim nightly fn n (e.builds bs q).2.1 (r.configure joined bs).2.1 ∧
    RefSeqs (e.builds bs q).2.2 (r.configure joined bs).2.2 turn := by
  induction bs generalizing e r q joined with
  | nil => exact ⟨rfl, .start hc hch hpl h1 h2 h3 h4 h5 n, hq⟩
  | cons b bs ih =>
    have hs := RefSim.start hc hch hpl h1 h2 h3 h4 h5 n
    cases hb : r.refuse b with
    | some p =>
      have hx := build_refuse q hs.range hb
      rcases hy : e.build b q with ⟨x, e', q'⟩
      rw [hy] at hx
      simp only at hx
      subst hx
      obtain ⟨rfl, rfl⟩ := Expectation.build_err hy
      simp only [Expectation.builds, hy, Ref.Exp.configure, hb]
      exact ⟨trivial, hs, hq⟩
    | none =>
      obtain ⟨e', he⟩ := Expectation.build_of_okCond q (build_accept hs.range hb) hc.poison hc.clean
      have hc' := hc.build he
      have hok := Expectation.build_ok he hc.poison hc.clean
      simp only [Expectation.builds, he]
      have hsame : ∀ b' : Build V, b = b' → (∀ sid, b' ≠ .inSequence sid) →
          ({ e' with chain := e.chain ++ [b] } : Expectation V).common.seqHandle = r.place.map fun x => ⟨x.1, x.2⟩ := by
        rintro b' rfl hne
        rw [hok, ← hpl]
        cases b <;> simp_all [seqOf]
      cases b with
      | inSequence sid =>
        simp only [Ref.Exp.configure, hb]
        refine ih hc' (by simp [hch]) ?_ h1 h2 h3 h4 h5 ?_
        · rw [hok]
          simp [seqOf, hq sid]
        · intro i
          simp only [seqsOf, Seqs.nextHandle, Seqs.set, Ref.Counts.bump]
          by_cases hi : i = sid
          · subst hi; simp [hq i]
          · simp [hi, hq i]
      | _ =>
        simp only [Ref.Exp.configure, hb]
        exact ih hc' (by simp [hch]) (hsame _ rfl (by simp)) h1 h2 h3 h4 h5 (by simpa [seqsOf] using hq)


theorem reply_sim {nightly : Bool} {fn : FnInfo V} {r : Ref.Exp V} {x : Ret V} (dbg : V → String) (tid : Nat)
    (args : List V) (upd : V → V) (g : Nat) (h : RefRet nightly fn r x) :
    x.reply nightly fn.default (.ret fn.funcname (describe r.chain)) tid args =
      (r.reply ⟨nightly, fn, dbg, tid, args, upd⟩).1 ∧
    RefRet nightly fn (r.reply ⟨nightly, fn, dbg, tid, args, upd⟩).2
      (x.next nightly fn.default ⟨g, tid, args, true, upd⟩) := by
  unfold RefRet at h
  rcases hk : fn.kind with _ | _ | _
  · simp only [hk] at h
    have hans : ∀ p w b, Ref.Exp.answer .static { r with past := p, written := w, badReturn := b } = r.answer .static :=
      fun _ _ _ => rfl
    cases hb : r.badReturn
    · rcases ha : r.answer .static with _ | b
      · simp only [ha, hb, Bool.false_eq_true, ↓reduceIte] at h
        subst h
        cases nightly <;> rcases hd : fn.default with _ | v <;>
          simp [Ref.Exp.reply, Ref.Exp.owned, hk, ha, hb, Ref.Call.default, hd, Ret.reply, StaticRfunc.callMut, Ret.next,
            Ref.Exp.unset, Ref.Exp.fails, returnDefault, RefRet, hans]
      · have := answer_eq .static r
        rw [ha] at this
        have := (returnSetter_mem this.symm).2
        cases b <;> simp [retOf] at this <;> clear this <;> simp only [ha, hb, Bool.false_eq_true, ↓reduceIte] at h <;> subst h
        · rename_i f
          rcases hf : f.run (f.hist ++ r.past) args with p | v <;>
            simp [Ref.Exp.reply, Ref.Exp.owned, hk, ha, hb, Ret.reply, StaticRfunc.callMut, Closure.call, Ret.next,
              RefRet, hans, hf]
        · rename_i t f
          by_cases ht : tid = t
          · rcases hf : f.run (f.hist ++ r.past) args with p | v <;>
            simp [Ref.Exp.reply, Ref.Exp.owned, hk, ha, hb, Ret.reply, StaticRfunc.callMut, Closure.call, Ret.next,
              RefRet, hans, hf, ht]
          · simp [Ref.Exp.reply, Ref.Exp.owned, hk, ha, hb, Ret.reply, StaticRfunc.callMut, Closure.call, Ret.next,
              RefRet, hans, ht]
        · simp [Ref.Exp.reply, Ref.Exp.owned, hk, ha, hb, Ret.reply, StaticRfunc.callMut, Closure.call, Ret.next,
              RefRet, hans]
        · rename_i t f
          by_cases ht : tid = t <;>
          simp [Ref.Exp.reply, Ref.Exp.owned, hk, ha, hb, Ret.reply, StaticRfunc.callMut, Closure.call, Ret.next,
              RefRet, hans, ht]
        · rename_i f
          by_cases hp : r.past = []
          · rcases hf : f.run args with p | v <;>
            simp [Ref.Exp.reply, Ref.Exp.owned, hk, ha, hb, Ret.reply, StaticRfunc.callMut, Closure.call, Ret.next,
              RefRet, hans, hf, hp]
          · simp [Ref.Exp.reply, Ref.Exp.owned, hk, ha, hb, Ret.reply, StaticRfunc.callMut, Closure.call, Ret.next,
              RefRet, hans, hp, Ref.Exp.fails]
        · rename_i t f
          by_cases hp : r.past = []
          · by_cases ht : tid = t
            · rcases hf : f.run args with p | v <;>
              simp [Ref.Exp.reply, Ref.Exp.owned, hk, ha, hb, Ret.reply, StaticRfunc.callMut, Closure.call, Ret.next,
                RefRet, hans, hf, hp, ht]
            · simp [Ref.Exp.reply, Ref.Exp.owned, hk, ha, hb, Ret.reply, StaticRfunc.callMut, Closure.call, Ret.next,
                RefRet, hans, hp, ht]
          · simp [Ref.Exp.reply, Ref.Exp.owned, hk, ha, hb, Ret.reply, StaticRfunc.callMut, Closure.call, Ret.next,
              RefRet, hans, hp, Ref.Exp.fails]
    · simp only [hb, ↓reduceIte] at h
      obtain ⟨y, rfl⟩ := h
      simp only [Ref.Exp.reply, hk, hb, ↓reduceIte, Ret.reply, Ret.next, true_and]
      unfold RefRet
      simp only [hk, hb, ↓reduceIte]
      exact ⟨y, rfl⟩
  · simp only [hk] at h
    rcases ha : r.answer .ref with _ | b
    · simp only [ha] at h
      subst h
      cases hd : (if nightly then fn.default else none) with
      | none =>
        simp only [Ref.Exp.reply, hk, ha, Ref.Call.default, hd, Ret.reply, RefRfunc.call, Ret.next,
          Ref.Exp.unset, Ref.Exp.fails, defaultErr, true_and]
        simp [RefRet, hk, ha, hd]
      | some v =>
        simp only [Ref.Exp.reply, hk, ha, Ref.Call.default, hd, Ret.reply, RefRfunc.call, Ret.next, true_and]
        simp [RefRet, hk, ha, hd]
    · have := answer_eq .ref r
      rw [ha] at this
      have := (returnSetter_mem this.symm).2
      cases b <;> simp [retOf] at this
      simp only [ha] at h
      subst h
      simp [Ref.Exp.reply, hk, ha, Ret.reply, RefRfunc.call, Ret.next, RefRet]
  · simp only [hk] at h
    have hans : ∀ p w b, Ref.Exp.answer .refMut { r with past := p, written := w, badReturn := b } = r.answer .refMut :=
      fun _ _ _ => rfl
    rcases ha : r.answer .refMut with _ | b
    · simp only [ha] at h
      subst h
      cases hd : (if nightly then fn.default else none) with
      | none =>
        simp [Ref.Exp.reply, hk, ha, Ref.Call.default, hd, Ret.reply, RefMutRfunc.callMut, Ret.next,
          Ref.Exp.unset, Ref.Exp.fails, defaultErr, RefRet]
      | some v =>
        simp [Ref.Exp.reply, hk, ha, Ref.Call.default, hd, Ret.reply, RefMutRfunc.callMut, Ret.next, RefRet,
          RefMutRfunc.write, hans]
    · have := answer_eq .refMut r
      rw [ha] at this
      have := (returnSetter_mem this.symm).2
      cases b <;> simp [retOf] at this <;> clear this <;> simp only [ha] at h
      · rename_i f
        obtain ⟨o, rfl⟩ := h
        rcases hf : f.run (f.hist ++ r.past) args with p | v <;>
          simp [Ref.Exp.reply, hk, ha, Ret.reply, RefMutRfunc.callMut, Closure.call, Ret.next,
            RefRet, hans, hf, RefMutRfunc.write]
      · rename_i t f
        obtain ⟨o, rfl⟩ := h
        by_cases ht : tid = t
        · rcases hf : f.run (f.hist ++ r.past) args with p | v <;>
            simp [Ref.Exp.reply, hk, ha, Ret.reply, RefMutRfunc.callMut, Closure.call, Ret.next,
              RefRet, hans, hf, RefMutRfunc.write, ht]
        · simp [Ref.Exp.reply, hk, ha, Ret.reply, RefMutRfunc.callMut, Closure.call, Ret.next,
              RefRet, hans, RefMutRfunc.write, ht]
      · subst h
        simp [Ref.Exp.reply, hk, ha, Ret.reply, RefMutRfunc.callMut, Closure.call, Ret.next,
              RefRet, hans, RefMutRfunc.write]


theorem RefSim.mono {nightly : Bool} {fn : FnInfo V} {n m : Nat} {e : Expectation V} {r : Ref.Exp V}
    (h : RefSim nightly fn n e r) (hm : n ≤ m) : RefSim nightly fn m e r :=
  ⟨by have := h.few; omega, h.poison, h.count, h.range, h.matcher, h.seq, h.ret⟩

theorem display_eq (chain : List (Build V)) : (lastOf matcherOf .always chain).display = describe chain := by
  have hdec : ∀ b : Build V, descriptionOf b = (matcherOf b).map Matcher.display := by
    intro b
    cases b <;> rfl
  unfold describe lastOf
  have : chain.filterMap descriptionOf = (chain.filterMap matcherOf).map Matcher.display := by
    rw [List.map_filterMap]
    congr 1
    funext b
    exact hdec b
  rw [this, List.getLast?_map]
  cases (chain.filterMap matcherOf).getLast? <;> simp [Matcher.display]

theorem reply_frame (c : Ref.Call V) (r : Ref.Exp V) :
    (r.reply c).2.chain = r.chain ∧ (r.reply c).2.place = r.place ∧ (r.reply c).2.attempts = r.attempts ∧
    (r.reply c).2.badMatcher = r.badMatcher := by
  unfold Ref.Exp.reply
  simp only
  repeat' split
  all_goals exact ⟨rfl, rfl, rfl, rfl⟩

theorem callDesc_eq (cx : Cx V) (info : FnInfo V) (args : List V) :
    callDesc cx info args = callText info.descname (args.map cx.dbg) := rfl

section
variable {m : Matcher V} {f d : String} {q : Seqs} {k lo top : Nat} {sh : Option SeqHandle}

theorem commonCall_full (hk : k ≠ usizeMax) (ht : top ≠ 0) (h : top ≤ k + 1) :
    Common.call f d ⟨m, false, sh, ⟨k, ⟨lo, top⟩⟩⟩ q =
      (.error (.call f m.display (if top = 1 then .shouldNot else .tooMany (k + 1) (top - 1))),
        ⟨m, false, sh, ⟨k + 1, ⟨lo, top⟩⟩⟩, q) := by
  have h' : k + 1 ≥ top := h
  by_cases h1 : top = 1 <;> simp [Common.call, Times.call, addOne, hk, atomicInc, h', h1, subOne, ht]

theorem commonCall_free (hk : k ≠ usizeMax) (h : ¬ top ≤ k + 1) :
    Common.call f d ⟨m, false, none, ⟨k, ⟨lo, top⟩⟩⟩ q = (.ok (), ⟨m, false, none, ⟨k + 1, ⟨lo, top⟩⟩⟩, q) := by
  have h' : ¬ (k + 1 ≥ top) := h
  simp [Common.call, Times.call, addOne, hk, atomicInc, h, Common.verifySequence, Common.satisfySequence]

theorem commonCall_early {sid pos : Nat} (hk : k ≠ usizeMax) (h : ¬ top ≤ k + 1) (hl : (q sid).level ≠ pos) :
    Common.call f d ⟨m, false, some ⟨sid, pos⟩, ⟨k, ⟨lo, top⟩⟩⟩ q =
      (.error (.seqViolation d), ⟨m, false, some ⟨sid, pos⟩, ⟨k + 1, ⟨lo, top⟩⟩⟩, q) := by
  have hl' : pos ≠ (q sid).level := fun e => hl e.symm
  simp [Common.call, Times.call, addOne, hk, atomicInc, h, Common.verifySequence, Seqs.verify, hl']

theorem commonCall_turn {sid pos : Nat} (hk : k ≠ usizeMax) (h : ¬ top ≤ k + 1) (hl : (q sid).level = pos) :
    Common.call f d ⟨m, false, some ⟨sid, pos⟩, ⟨k, ⟨lo, top⟩⟩⟩ q =
      (.ok (), ⟨m, false, some ⟨sid, pos⟩, ⟨k + 1, ⟨lo, top⟩⟩⟩,
        if lo ≤ k + 1 then q.set sid { q sid with level := (q sid).level + 1 } else q) := by
  have h1 : k + 1 < top := by omega
  by_cases h2 : lo ≤ k + 1
  · simp [Common.call, Times.call, addOne, hk, atomicInc, h, Common.verifySequence, Seqs.verify, hl,
      Times.isSatisfied, h1, h2, Common.satisfySequence, Seqs.satisfy]
  · simp [Common.call, Times.call, addOne, hk, atomicInc, h, Common.verifySequence, Seqs.verify, hl,
      Times.isSatisfied, h1, h2]

end

/-- A call that an expectation takes. -/
theorem call_sim {cx : Cx V} {fn : FnInfo V} {n : Nat} {e : Expectation V} {r : Ref.Exp V} (args : List V)
    {w : World V} {joined turn : Ref.Counts} (h : RefSim cx.nightly fn n e r) (hq : RefSeqs w.seqs joined turn)
    (hn : n < usizeMax) (hb : r.badMatcher = false) (ht : r.top ≠ 0) {b : Bool}
    (hv : Spec.verdict cx.tid args r.chain = .ok b) :
    (e.call cx fn args w).1 = (r.take ⟨cx.nightly, fn, cx.dbg, cx.tid, args, cx.upd⟩ turn).1 ∧
    RefSim cx.nightly fn (n + 1) (e.call cx fn args w).2.1
      (r.take ⟨cx.nightly, fn, cx.dbg, cx.tid, args, cx.upd⟩ turn).2.1 ∧
    RefSeqs (e.call cx fn args w).2.2.seqs joined
      (r.take ⟨cx.nightly, fn, cx.dbg, cx.tid, args, cx.upd⟩ turn).2.2 := by
  obtain ⟨h0, h1, h2, h3, h4, h5, h6⟩ := h
  have hne : r.attempts ≠ usizeMax := by omega
  have hp : e.common.mpoison = false := by rw [h1, hb]
  have hd : e.common.matcher.display = describe r.chain := by rw [h4, display_eq]
  have hsim : ∀ (x : Ret V) (r' : Ref.Exp V), RefRet cx.nightly fn r' x → r'.chain = r.chain → r'.place = r.place →
      r'.attempts = r.attempts + 1 → r'.badMatcher = r.badMatcher →
      RefSim cx.nightly fn (n + 1)
        { e with common := { e.common with times := ⟨r.attempts + 1, e.common.times.range⟩ }, ret := x } r' := by
    intro x r' hx e1 e2 e3 e4
    refine ⟨by omega, by rw [e4]; exact h1, e3.symm, ?_, by rw [e1]; exact h4, by rw [e2]; exact h5, hx⟩
    simp only [h3, Ref.Exp.lo, Ref.Exp.top, e1]
  have hwhole : ∀ g, RefRet cx.nightly fn { r with attempts := r.attempts + 1 } e.ret → _ :=
    fun g hr => reply_sim (r := { r with attempts := r.attempts + 1 }) (x := e.ret) cx.dbg cx.tid args cx.upd g hr
  have hR := hwhole e.gid h6
  have hF := reply_frame ⟨cx.nightly, fn, cx.dbg, cx.tid, args, cx.upd⟩ { r with attempts := r.attempts + 1 }
  have hc : e.common = ⟨e.common.matcher, false, r.place.map fun x => ⟨x.1, x.2⟩, ⟨r.attempts, ⟨r.lo, r.top⟩⟩⟩ := by
    rcases hc : e.common with ⟨a, b, c, ⟨d1, d2⟩⟩
    simp only [hc] at h1 h2 h3 h5 hp
    simp [hp, h2, h3, h5]
  have hT : r.take ⟨cx.nightly, fn, cx.dbg, cx.tid, args, cx.upd⟩ turn =
      if r.top ≤ r.attempts + 1 then
        (.error (.call fn.funcname (describe r.chain)
          (if r.top = 1 then .shouldNot else .tooMany (r.attempts + 1) (r.top - 1))),
          { r with attempts := r.attempts + 1 }, turn)
      else
        match r.place with
        | none => ((Ref.Exp.reply ⟨cx.nightly, fn, cx.dbg, cx.tid, args, cx.upd⟩ { r with attempts := r.attempts + 1 }).1,
            (Ref.Exp.reply ⟨cx.nightly, fn, cx.dbg, cx.tid, args, cx.upd⟩ { r with attempts := r.attempts + 1 }).2, turn)
        | some (sid, pos) =>
          if turn sid = pos then
            ((Ref.Exp.reply ⟨cx.nightly, fn, cx.dbg, cx.tid, args, cx.upd⟩ { r with attempts := r.attempts + 1 }).1,
            (Ref.Exp.reply ⟨cx.nightly, fn, cx.dbg, cx.tid, args, cx.upd⟩ { r with attempts := r.attempts + 1 }).2,
            if r.lo ≤ r.attempts + 1 then turn.bump sid else turn)
          else (.error (.seqViolation (callDesc cx fn args)), { r with attempts := r.attempts + 1 }, turn) := by
    unfold Ref.Exp.take
    simp only [hb, Bool.false_eq_true, ↓reduceIte, hv, ht]
    rfl
  generalize Ref.Exp.reply ⟨cx.nightly, fn, cx.dbg, cx.tid, args, cx.upd⟩ { r with attempts := r.attempts + 1 } = y
    at hR hF hT
  rw [hT]
  have hpass : ∀ q', e.common.call fn.funcname (callDesc cx fn args) w.seqs =
      (.ok (), { e.common with times := ⟨r.attempts + 1, e.common.times.range⟩ }, q') →
      (e.call cx fn args w).1 = y.1 ∧ RefSim cx.nightly fn (n + 1) (e.call cx fn args w).2.1 y.2 ∧
      (e.call cx fn args w).2.2.seqs = q' := by
    intro q' hq'
    unfold Expectation.call
    rw [hq']
    simp only
    rw [Expectation.ret_call_eq _ _ _ _ _ (by exact hp) e.gid]
    refine ⟨?_, hsim _ _ hR.2 hF.1 hF.2.1 hF.2.2.1 hF.2.2.2, rfl⟩
    simp only [hd]
    exact hR.1
  have hstop : ∀ p, e.common.call fn.funcname (callDesc cx fn args) w.seqs =
      (.error p, { e.common with times := ⟨r.attempts + 1, e.common.times.range⟩ }, w.seqs) →
      (e.call cx fn args w).1 = .error p ∧
      RefSim cx.nightly fn (n + 1) (e.call cx fn args w).2.1 { r with attempts := r.attempts + 1 } ∧
      (e.call cx fn args w).2.2.seqs = w.seqs := by
    intro p hp'
    unfold Expectation.call
    rw [hp']
    exact ⟨rfl, hsim _ _ h6 rfl rfl rfl rfl, rfl⟩
  by_cases hfull : r.top ≤ r.attempts + 1
  · rw [if_pos hfull]
    obtain ⟨a, b, c⟩ := hstop _ (by
      rw [hc, commonCall_full hne ht hfull, hd])
    exact ⟨a, b, by rw [c]; exact hq⟩
  · rw [if_neg hfull]
    rcases hpl : r.place with _ | ⟨sid, pos⟩
    · obtain ⟨a, b, c⟩ := hpass _ (by
        rw [hc, hpl]
        exact commonCall_free hne hfull)
      exact ⟨a, b, by rw [c]; exact hq⟩
    · simp only
      by_cases hl : turn sid = pos
      · have hl' : (w.seqs sid).level = pos := by rw [hq sid]; exact hl
        rw [if_pos hl]
        obtain ⟨a, b, c⟩ := hpass _ (by
          rw [hc, hpl]
          exact commonCall_turn hne hfull hl')
        refine ⟨a, b, ?_⟩
        rw [c]
        by_cases h7 : r.lo ≤ r.attempts + 1
        · simp only [h7, ↓reduceIte]
          intro i
          simp only [Seqs.set, Ref.Counts.bump]
          by_cases hi : i = sid
          · subst hi; simp [hq i]
          · simp [hi, hq i]
        · simp only [h7, ↓reduceIte]
          exact hq
      · have hl' : (w.seqs sid).level ≠ pos := by rw [hq sid]; exact hl
        rw [if_neg hl]
        obtain ⟨a, b, c⟩ := hstop _ (by
          rw [hc, hpl]
          exact commonCall_early hne hfull hl')
        exact ⟨a, by rw [hpl] at b; exact b, by rw [c]; exact hq⟩


/-- Two lists agree element by element. -/
inductive Each {α β : Type} (R : α → β → Prop) : List α → List β → Prop
  | nil : Each R [] []
  | cons {a b l m} (h : R a b) (t : Each R l m) : Each R (a :: l) (b :: m)

section
variable {α β : Type} {R S : α → β → Prop} {l : List α} {m : List β}

theorem Each.length (h : Each R l m) : l.length = m.length := by
  induction h with
  | nil => rfl
  | cons _ _ ih => simp [ih]

theorem Each.imp (h : Each R l m) (f : ∀ a b, R a b → S a b) : Each S l m := by
  induction h with
  | nil => exact .nil
  | cons h _ ih => exact .cons (f _ _ h) ih

theorem Each.set (h : Each R l m) (i : Nat) {a : α} {b : β} (hab : R a b) : Each R (l.set i a) (m.set i b) := by
  induction h generalizing i with
  | nil => exact .nil
  | cons h t ih =>
    cases i with
    | zero => exact .cons hab t
    | succ i => exact .cons h (ih i)

theorem Each.append {l' : List α} {m' : List β} (h : Each R l m) (h' : Each R l' m') : Each R (l ++ l') (m ++ m') := by
  induction h with
  | nil => exact h'
  | cons h _ ih => exact .cons h ih

theorem Each.get (h : Each R l m) (i : Nat) :
    (l[i]? = none ∧ m[i]? = none) ∨ ∃ a b, l[i]? = some a ∧ m[i]? = some b ∧ R a b := by
  induction h generalizing i with
  | nil => exact .inl ⟨rfl, rfl⟩
  | cons h t ih =>
    cases i with
    | zero => exact .inr ⟨_, _, rfl, rfl, h⟩
    | succ i => simpa using ih i

end

/-- What a scan does at an expectation. -/
theorem scan_sim {cx : Cx V} {fn : FnInfo V} {n : Nat} {es : List (Expectation V)} {rs : List (Ref.Exp V)}
    (args : List V) {w : World V} {joined turn : Ref.Counts} (h : Each (RefSim cx.nightly fn n) es rs)
    (hq : RefSeqs w.seqs joined turn) (hn : n < usizeMax) (k : Nat) :
    match rs.findIdx? (·.stops ⟨cx.nightly, fn, cx.dbg, cx.tid, args, cx.upd⟩ (k == 1)) with
    | none => callScan cx fn args k es w = (.ok none, es, w)
    | some i => ∃ r, rs[i]? = some r ∧
      (callScan cx fn args k es w).1 = liftRes (r.take ⟨cx.nightly, fn, cx.dbg, cx.tid, args, cx.upd⟩ turn).1 ∧
      Each (RefSim cx.nightly fn (n + 1)) (callScan cx fn args k es w).2.1
        (rs.set i (r.take ⟨cx.nightly, fn, cx.dbg, cx.tid, args, cx.upd⟩ turn).2.1) ∧
      RefSeqs (callScan cx fn args k es w).2.2.seqs joined
        (r.take ⟨cx.nightly, fn, cx.dbg, cx.tid, args, cx.upd⟩ turn).2.2 := by
  generalize hcc : (⟨cx.nightly, fn, cx.dbg, cx.tid, args, cx.upd⟩ : Ref.Call V) = c
  have hct : c.tid = cx.tid := by rw [← hcc]
  have hca : c.args = args := by rw [← hcc]
  induction h with
  | nil => simp [callScan]
  | @cons e r es rs h t ih =>
    have hone : Each (RefSim cx.nightly fn (n + 1)) es rs := t.imp fun _ _ h => h.mono (by omega)
    have hmatch : e.matches cx.tid args =
        if r.badMatcher then (.error .poisoned, e) else
          match Spec.verdict cx.tid args r.chain with
          | .ok b => (.ok b, e)
          | .error p => (.error p, { e with common := { e.common with mpoison := true } }) := by
      unfold Expectation.matches Common.matches
      have hm : e.common.matcher.matches cx.tid args = Spec.verdict cx.tid args r.chain := by
        rw [h.matcher, verdict_matches]
      rw [h.poison, hm]
      cases r.badMatcher
      · simp only [Bool.false_eq_true, ↓reduceIte]
        cases Spec.verdict cx.tid args r.chain <;> rfl
      · rfl
    have hdone : e.isDone = if r.top = 0 then .error .subOverflow else .ok (decide (¬ r.attempts + 1 < r.top)) := by
      unfold Expectation.isDone Common.isDone Times.isDone subOne
      rw [h.range, h.count]
      by_cases h0 : r.top = 0
      · simp [h0]
      · simp only [h0, ↓reduceIte]
        congr 1
        simp
    have hlater : r.stops c (k == 1) = false → callScan cx fn args k (e :: es) w =
        ((callScan cx fn args k es w).1, e :: (callScan cx fn args k es w).2.1, (callScan cx fn args k es w).2.2) := by
      intro hs
      unfold Ref.Exp.stops at hs
      rw [hct, hca] at hs
      simp only [Bool.or_eq_false_iff] at hs
      rw [callScan, hmatch]
      simp only [hs.1, Bool.false_eq_true, ↓reduceIte]
      rcases hv : Spec.verdict cx.tid args r.chain with p | b
      · simp [hv] at hs
      · cases b
        · rfl
        · simp only [hv, Bool.or_eq_false_iff, beq_eq_false_iff_ne, decide_eq_false_iff_not] at hs
          obtain ⟨_, ⟨s1, s2⟩, s3⟩ := hs
          have s1' : (k == 1) = false := by simpa using s1
          simp only [hdone, s2, ↓reduceIte, s3, not_false_eq_true, decide_true, Bool.not_true, s1', Bool.false_or,
            Bool.false_eq_true]
    rw [List.findIdx?_cons]
    cases hs : r.stops c (k == 1) with
    | false =>
      rw [hlater hs]
      simp only [Bool.false_eq_true, ↓reduceIte]
      cases hf : rs.findIdx? (·.stops c (k == 1)) with
      | none =>
        rw [hf] at ih
        simp only [Option.map_none] at ih ⊢
        rw [ih]
      | some i =>
        rw [hf] at ih
        simp only [Option.map_some] at ih ⊢
        obtain ⟨r', a1, a2, a3, a4⟩ := ih
        exact ⟨r', by simpa using a1, a2, .cons (h.mono (by omega)) a3, a4⟩
    | true =>
      simp only [↓reduceIte]
      refine ⟨r, rfl, ?_⟩
      simp only [List.set_cons_zero]
      unfold Ref.Exp.stops at hs
      rw [hct, hca] at hs
      rw [callScan, hmatch]
      cases hb : r.badMatcher with
      | true =>
        simp only [Ref.Exp.take, hb, ↓reduceIte, liftRes, true_and]
        exact ⟨.cons (h.mono (by omega)) hone, hq⟩
      | false =>
        simp only [hb, Bool.false_or, Bool.false_eq_true, ↓reduceIte] at hs ⊢
        rcases hv : Spec.verdict cx.tid args r.chain with p | b
        · simp only [Ref.Exp.take, hb, Bool.false_eq_true, ↓reduceIte, hct, hca, hv, liftRes, true_and]
          refine ⟨.cons ?_ hone, hq⟩
          have h := h.mono (show n ≤ n + 1 by omega)
          exact ⟨h.few, rfl, h.count, h.range, h.matcher, h.seq, h.ret⟩
        · rw [hv] at hs
          cases b with
          | false => simp at hs
          | true =>
            simp only [hdone]
            by_cases h0 : r.top = 0
            · simp only [h0, ↓reduceIte, Ref.Exp.take, hb, Bool.false_eq_true, hct, hca, hv, liftRes, true_and]
              exact ⟨.cons (h.mono (by omega)) hone, hq⟩
            · have hgo : ((!decide (¬ r.attempts + 1 < r.top)) || k == 1) = true := by
                simp [h0] at hs ⊢
                omega
              have hcall := call_sim args h hq hn hb h0 hv
              rw [hcc] at hcall
              obtain ⟨c1, c2, c3⟩ := hcall
              simp only [h0, ↓reduceIte, hgo]
              rcases hx : e.call cx fn args w with ⟨x1, x2, x3⟩
              rw [hx] at c1 c2 c3
              simp only at c1 c2 c3
              rw [← c1]
              cases x1 <;> exact ⟨rfl, .cons c2 hone, c3⟩


/-- A call on a list of expectations. -/
theorem dispatch_sim {cx : Cx V} {fn : FnInfo V} {n : Nat} {es : List (Expectation V)} {rs : List (Ref.Exp V)}
    (args : List V) {w : World V} {joined turn : Ref.Counts} (h : Each (RefSim cx.nightly fn n) es rs)
    (hq : RefSeqs w.seqs joined turn) (hn : n < usizeMax) :
    match Ref.dispatch ⟨cx.nightly, fn, cx.dbg, cx.tid, args, cx.upd⟩ turn rs with
    | none => Expectations.call cx fn args es w = (.ok none, es, w)
    | some r =>
      (Expectations.call cx fn args es w).1 = liftRes r.1 ∧
      Each (RefSim cx.nightly fn (n + 1)) (Expectations.call cx fn args es w).2.1 r.2.1 ∧
      RefSeqs (Expectations.call cx fn args es w).2.2.seqs joined r.2.2 := by
  have hs := scan_sim args h hq hn es.length
  rw [h.length] at hs
  unfold Ref.dispatch Expectations.call
  rw [h.length]
  cases hf : rs.findIdx? (·.stops ⟨cx.nightly, fn, cx.dbg, cx.tid, args, cx.upd⟩ (rs.length == 1)) with
  | none =>
    rw [hf] at hs
    exact hs
  | some i =>
    rw [hf] at hs
    obtain ⟨r, a1, a2, a3, a4⟩ := hs
    simp only [Option.bind_eq_bind, Option.bind_some, a1]
    exact ⟨a2, a3, a4⟩

/-- A method. -/
def MethSim (nightly : Bool) (n : Nat) (mi : MethodInfo V) (st : Store V) (m : Ref.Meth V) : Prop :=
  m.mi = mi ∧
  match st with
  | .concrete es => mi.generic = false ∧ Each (RefSim nightly (mi.fn 0) n) es (m.exps 0)
  | .generic g => mi.generic = true ∧ (g.map (·.1)).Nodup ∧
    ∀ k, Each (RefSim nightly (mi.fn k) n) ((GMap.get g k).getD []) (m.exps k)

theorem MethSim.mono {nightly : Bool} {n k : Nat} {mi : MethodInfo V} {st : Store V} {m : Ref.Meth V}
    (h : MethSim nightly n mi st m) (hk : n ≤ k) : MethSim nightly k mi st m := by
  obtain ⟨h1, h2⟩ := h
  refine ⟨h1, ?_⟩
  cases st with
  | concrete es => exact ⟨h2.1, h2.2.imp fun _ _ h => h.mono hk⟩
  | generic g => exact ⟨h2.1, h2.2.1, fun j => (h2.2.2 j).imp fun _ _ h => h.mono hk⟩

theorem fn_concrete {mi : MethodInfo V} (h : mi.generic = false) (k j : Key) : mi.fn k = mi.fn j := by
  simp [MethodInfo.fn, h]

theorem MethSim.fn {nightly : Bool} {n : Nat} {mi : MethodInfo V} {st : Store V} {m : Ref.Meth V}
    (h : MethSim nightly n mi st m) (k : Key) : m.fn k = mi.fn k := by
  unfold Ref.Meth.fn Ref.Meth.key MethodInfo.fn
  rw [h.1]

theorem MethSim.new (nightly : Bool) (n : Nat) (mi : MethodInfo V) :
    MethSim nightly n mi (Store.new mi) (Ref.Meth.new mi) := by
  refine ⟨rfl, ?_⟩
  unfold Store.new
  cases hg : mi.generic
  · exact ⟨rfl, .nil⟩
  · exact ⟨rfl, List.nodup_nil, fun k => .nil⟩

theorem MethSim.drained {nightly : Bool} {n : Nat} {mi : MethodInfo V} {st : Store V} {m : Ref.Meth V}
    (h : MethSim nightly n mi st m) (j : Nat) : MethSim nightly j mi st.drained (Ref.Meth.new m.mi) := by
  rw [h.1]
  have := MethSim.new nightly j mi
  obtain ⟨h1, h2⟩ := h
  cases st with
  | concrete es => simpa [Store.new, h2.1, Store.drained] using this
  | generic g => simpa [Store.new, h2.1, Store.drained] using this

theorem GMap.put_nodup {g : GMap V} (h : (g.map (·.1)).Nodup) (k : Key) (es : List (Expectation V)) :
    ((GMap.put g k es).map (·.1)).Nodup := by
  cases hg : GMap.get g k with
  | none =>
    rw [GMap.put_none hg, List.map_append, List.nodup_append]
    refine ⟨h, by simp, ?_⟩
    intro a ha b hb
    simp only [List.map_cons, List.map_nil, List.mem_singleton] at hb
    subst hb
    rintro rfl
    rw [List.mem_map] at ha
    obtain ⟨x, hx, rfl⟩ := ha
    unfold GMap.get at hg
    simp only [Option.map_eq_none_iff, List.find?_eq_none] at hg
    simpa using hg x hx
  | some es' =>
    obtain ⟨a, b, rfl, h2⟩ := GMap.get_split hg
    rw [h2]
    simpa using h

theorem MethSim.put {nightly : Bool} {n : Nat} {mi : MethodInfo V} {g : GMap V} {m : Ref.Meth V}
    (h : MethSim nightly n mi (.generic g) m) (k : Key) {es : List (Expectation V)} {rs : List (Ref.Exp V)}
    (he : Each (RefSim nightly (mi.fn k) n) es rs) : MethSim nightly n mi (.generic (GMap.put g k es)) (m.put k rs) := by
  obtain ⟨h1, h2, h3, h4⟩ := h
  refine ⟨h1, h2, GMap.put_nodup h3 k es, fun j => ?_⟩
  simp only [Ref.Meth.put, Ref.Meth.key, h1, h2, ↓reduceIte]
  by_cases hj : j = k
  · subst hj
    simpa [GMap.get_put_same] using he
  · simp only [hj, ↓reduceIte]
    rw [GMap.get_put_other g (fun e => hj e.symm)]
    exact h4 j

theorem MethSim.get {nightly : Bool} {n : Nat} {mi : MethodInfo V} {g : GMap V} {m : Ref.Meth V}
    (h : MethSim nightly n mi (.generic g) m) (k : Key) : m.get k = m.exps k := by
  obtain ⟨h1, h2, _⟩ := h
  simp [Ref.Meth.get, Ref.Meth.key, h1, h2]

theorem MethSim.get' {nightly : Bool} {n : Nat} {mi : MethodInfo V} {es : List (Expectation V)} {m : Ref.Meth V}
    (h : MethSim nightly n mi (.concrete es) m) (k : Key) : m.get k = m.exps 0 := by
  obtain ⟨h1, h2, _⟩ := h
  simp [Ref.Meth.get, Ref.Meth.key, h1, h2]

theorem MethSim.put' {nightly : Bool} {n j : Nat} {mi : MethodInfo V} {es es' : List (Expectation V)} {m : Ref.Meth V}
    (h : MethSim nightly n mi (.concrete es) m) (k : Key) {rs : List (Ref.Exp V)}
    (he : Each (RefSim nightly (mi.fn k) j) es' rs) : MethSim nightly j mi (.concrete es') (m.put k rs) := by
  obtain ⟨h1, h2, _⟩ := h
  refine ⟨h1, h2, ?_⟩
  rw [fn_concrete h2 0 k]
  simpa [Ref.Meth.put, Ref.Meth.key, h1, h2] using he

theorem store_call_sim {cx : Cx V} {mi : MethodInfo V} {n : Nat} {st : Store V} {m : Ref.Meth V} (k : Key)
    (args : List V) {w : World V} {joined turn : Ref.Counts} (h : MethSim cx.nightly n mi st m)
    (hq : RefSeqs w.seqs joined turn) (hn : n < usizeMax) :
    match Ref.dispatch ⟨cx.nightly, m.fn k, cx.dbg, cx.tid, args, cx.upd⟩ turn (m.get k) with
    | none => (st.call cx mi k args w) = (.ok none, st, w)
    | some r =>
      (st.call cx mi k args w).1 = liftRes r.1 ∧
      MethSim cx.nightly (n + 1) mi (st.call cx mi k args w).2.1 (m.put k r.2.1) ∧
      RefSeqs (st.call cx mi k args w).2.2.seqs joined r.2.2 := by
  rw [h.fn]
  cases st with
  | concrete es =>
    have hd := dispatch_sim (fn := mi.fn k) args (by rw [fn_concrete h.2.1 k 0]; exact h.2.2) hq hn
    rw [h.get' k]
    split at hd
    · rename_i hx
      simp only [Store.call]
      rw [hd]
    · rename_i r hx
      exact ⟨hd.1, h.put' k hd.2.1, hd.2.2⟩
  | generic g =>
    have hd := dispatch_sim (fn := mi.fn k) args (h.2.2.2 k) hq hn
    rw [h.get k]
    split at hd
    · rename_i hx
      simp only [Store.call]
      cases hg : GMap.get g k with
      | none => rfl
      | some es =>
        simp only [hg, Option.getD_some] at hd
        simp only [hd, GMap.put_get hg]
    · rename_i r hx
      simp only [Store.call]
      cases hg : GMap.get g k with
      | none =>
        have := (h.2.2.2 k).length
        simp only [hg, Option.getD_none, List.length_nil] at this
        rw [List.eq_nil_of_length_eq_zero this.symm] at hx
        simp [Ref.dispatch] at hx
      | some es =>
        simp only [hg, Option.getD_some] at hd
        exact ⟨hd.1, (h.mono (by omega)).put k hd.2.1, hd.2.2⟩

theorem store_expect_sim {nightly : Bool} {mi : MethodInfo V} {n : Nat} {st : Store V} {m : Ref.Meth V} (k : Key)
    (bs : List (Build V)) {w : World V} {joined turn : Ref.Counts} (h : MethSim nightly n mi st m)
    (hq : RefSeqs w.seqs joined turn) :
    (st.expect nightly mi k bs w).1 = (Ref.Exp.configure {} joined bs).1 ∧
    MethSim nightly n mi (st.expect nightly mi k bs w).2.1 (m.put k (m.get k ++ [(Ref.Exp.configure {} joined bs).2.1])) ∧
    RefSeqs (st.expect nightly mi k bs w).2.2.seqs (Ref.Exp.configure {} joined bs).2.2 turn := by
  have hc := configure_sim bs (r := {}) (Cfg.new nightly (mi.fn k) w.fresh) rfl rfl rfl rfl rfl rfl rfl hq n
  cases st with
  | concrete es =>
    refine ⟨hc.1, ?_, hc.2.2⟩
    rw [h.get' k]
    refine h.put' k (.append ?_ (.cons hc.2.1 .nil))
    rw [fn_concrete h.2.1 k 0]
    exact h.2.2
  | generic g =>
    refine ⟨hc.1, ?_, hc.2.2⟩
    rw [h.get k]
    exact h.put k (.append (h.2.2.2 k) (.cons hc.2.1 .nil))

end Mockall
