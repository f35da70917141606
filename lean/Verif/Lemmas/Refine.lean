import Verif.Spec.Method
import Verif.Lemmas.Scan
import Verif.Lemmas.Builders

/-! # Helper lemmas: simulation between the model of one method and its specification -/

set_option linter.unusedSimpArgs false

namespace Mockall

open Spec

variable {V : Type}

/-- The model's return function implements the specified answer after `served` calls. -/
def RetSim (tid : Nat) (nightly : Bool) (d : Option V) (r : Ret V) (a : Answer V)
    (served : List (List V)) : Prop :=
  match a with
  | .fn tag f =>
    r = .static (.mut ⟨fun h as => .ok (f h as), served, tag⟩) false ∨
    r = .static (.mutSt tid ⟨fun h as => .ok (f h as), served, tag⟩) false
  | .once tag f =>
    match served.length with
    | 0 => r = .static (.once ⟨fun as => .ok (f as), tag⟩) false ∨
           r = .static (.onceSt tid ⟨fun as => .ok (f as), tag⟩) false
    | 1 => r = .static .expired false
    | _ => r = .static .expired true
  | .unset => r = .static .dflt (decide (served ≠ []) && !(nightly && d.isSome))

structure Sim (tid : Nat) (nightly : Bool) (d : Option V) (e : Expectation V) (s : Exp V) : Prop where
  poison : e.common.mpoison = false
  noseq : e.common.seqHandle = none
  times : e.common.times = ⟨s.attempts, ⟨s.lo, s.hi + 1⟩⟩
  hi : s.hi + 1 ≤ usizeMax
  acc : ∀ args, e.common.matcher.matches tid args = .ok (s.accepts args)
  descr : e.common.matcher.display = s.descr
  ret : RetSim tid nightly d e.ret s.answer s.served

/-- Effect of one builder call on the specification's view. -/
def applyBuild (s : Exp V) (b : SBuild V) : Exp V :=
  let w := b.window?.getD (s.lo, s.hi)
  let m := b.matcher?.getD (s.accepts, s.descr)
  { s with lo := w.1, hi := w.2, accepts := m.1, descr := m.2
           answer := b.answer?.getD s.answer }

theorem evalAll_ok (ps : List ((V → Bool) × String)) (as : List V) :
    evalAll (ps.map fun p => (⟨fun v => .ok (p.1 v), p.2⟩ : Pred V)) as =
      .ok ((ps.zip as).map fun q => q.1.1 q.2) := by
  induction ps generalizing as with
  | nil => simp [evalAll]
  | cons p ps ih =>
    cases as with
    | nil => simp [evalAll]
    | cons a as =>
      simp only [List.map_cons, evalAll, List.zip_cons_cons]
      rw [ih]
      rfl

theorem addOne_ok {n : Nat} (h : n < usizeMax) : addOne n = .ok (n + 1) := by
  have : n ≠ usizeMax := by omega
  simp [addOne, this]

theorem from_tame (a : TimesArg) (h : Tame a) :
    TimesRange.from a = .ok ⟨(window a).1, (window a).2 + 1⟩ ∧ (window a).2 + 1 ≤ usizeMax := by
  have hpos : usizeMax - 1 + 1 = usizeMax := rfl
  cases a with
  | n n => exact ⟨by simp [TimesRange.from, window, addOne_ok h, bind, Except.bind, pure, Except.pure], h⟩
  | range a b =>
    obtain ⟨h1, h2⟩ := h
    have : b - 1 + 1 = b := by omega
    simp [TimesRange.from, window, h1, this, h2]
  | rangeFrom a => simp [TimesRange.from, window, hpos]
  | rangeFull => simp [TimesRange.from, window, hpos]
  | rangeInclusive a b =>
    obtain ⟨h1, h2⟩ := h
    exact ⟨by simp [TimesRange.from, window, addOne_ok h2, h1, bind, Except.bind, pure, Except.pure], h2⟩
  | rangeTo b =>
    obtain ⟨h1, h2⟩ := h
    have : b - 1 + 1 = b := by omega
    simp [TimesRange.from, window, this, h2]
  | rangeToInclusive b =>
    exact ⟨by simp [TimesRange.from, window, addOne_ok h, bind, Except.bind, pure, Except.pure], h⟩

theorem build_sim (tid : Nat) (nightly : Bool) (d : Option V) (e : Expectation V) (s : Exp V)
    (b : SBuild V) (q : Seqs) (h : Sim tid nightly d e s) (hs : s.served = [])
    (ht : ∀ a, b = .times a → Tame a) :
    ∃ e', Expectation.build (b.code tid) e q = (.ok (), e', q) ∧
      Sim tid nightly d e' (applyBuild s b) := by
  obtain ⟨h1, h2, h3, h4, h5, h6, h7⟩ := h
  have hret : ∃ r, e.ret = .static r false := by
    unfold RetSim at h7
    rw [hs] at h7
    cases ha : s.answer <;> simp only [ha, List.length_nil] at h7
    · exact ⟨_, by simpa using h7⟩
    · rcases h7 with h7 | h7 <;> exact ⟨_, h7⟩
    · rcases h7 with h7 | h7 <;> exact ⟨_, h7⟩
  obtain ⟨r, hr⟩ := hret
  cases b with
  | times a =>
    obtain ⟨hf, hle⟩ := from_tame a (ht a rfl)
    refine ⟨{ e with common := { e.common with times := ⟨s.attempts, ⟨(window a).1, (window a).2 + 1⟩⟩ } }, ?_, ?_⟩
    · simp [SBuild.code, Expectation.build, Times.times, hf, h3]
    · constructor <;> simp_all [applyBuild, SBuild.window?, SBuild.matcher?, SBuild.answer?]
  | once =>
    refine ⟨{ e with common := { e.common with times := ⟨s.attempts, ⟨1, 2⟩⟩ } }, ?_, ?_⟩
    · simp [SBuild.code, Expectation.build, Times.times, h3, TimesRange.from, addOne, usizeMax, bind, Except.bind, pure, Except.pure]
    · constructor <;> simp_all [applyBuild, SBuild.window?, SBuild.matcher?, SBuild.answer?, usizeMax]
  | never =>
    refine ⟨{ e with common := { e.common with times := ⟨s.attempts, ⟨0, 1⟩⟩ } }, ?_, ?_⟩
    · simp [SBuild.code, Expectation.build, Times.never, h3]
    · constructor <;> simp_all [applyBuild, SBuild.window?, SBuild.matcher?, SBuild.answer?, usizeMax]
  | «with» ps =>
    refine ⟨{ e with common := { e.common with matcher := .pred (ps.map fun p => ⟨fun v => .ok (p.1 v), p.2⟩) } }, ?_, ?_⟩
    · simp [SBuild.code, Expectation.build, Expectation.setMatcher, h1]
    · constructor <;> simp_all [applyBuild, SBuild.window?, SBuild.matcher?, SBuild.answer?]
      · intro args
        simp [Matcher.matches, evalAll_ok, bind, Except.bind, pure, Except.pure, Function.comp_def]
      · simp [Matcher.display, Function.comp_def]
  | withf st f =>
    cases st
    · refine ⟨{ e with common := { e.common with matcher := .func fun as => .ok (f as) } }, ?_, ?_⟩
      · simp [SBuild.code, Expectation.build, Expectation.setMatcher, h1]
      · constructor <;> simp_all [applyBuild, SBuild.window?, SBuild.matcher?, SBuild.answer?, Matcher.matches, Matcher.display]
    · refine ⟨{ e with common := { e.common with matcher := .funcSt tid fun as => .ok (f as) } }, ?_, ?_⟩
      · simp [SBuild.code, Expectation.build, Expectation.setMatcher, h1]
      · constructor <;> simp_all [applyBuild, SBuild.window?, SBuild.matcher?, SBuild.answer?, Matcher.matches, Matcher.display]
  | returning st tag f =>
    cases st <;> refine ⟨_, by simp [SBuild.code, Expectation.build, Expectation.setStatic, hr]; rfl, ?_⟩ <;>
      constructor <;> simp_all [applyBuild, SBuild.window?, SBuild.matcher?, SBuild.answer?, RetSim]
  | returnConst st v =>
    cases st <;> refine ⟨_, by simp [SBuild.code, Expectation.build, Expectation.setStatic, hr]; rfl, ?_⟩ <;>
      constructor <;> simp_all [applyBuild, SBuild.window?, SBuild.matcher?, SBuild.answer?, RetSim, constClosure]
  | returnOnce st tag f =>
    cases st <;> refine ⟨_, by simp [SBuild.code, Expectation.build, Expectation.setStatic, hr]; rfl, ?_⟩ <;>
      constructor <;> simp_all [applyBuild, SBuild.window?, SBuild.matcher?, SBuild.answer?, RetSim]

theorem applyBuild_served (s : Exp V) (b : SBuild V) :
    (applyBuild s b).served = s.served ∧ (applyBuild s b).attempts = s.attempts := ⟨rfl, rfl⟩

/-- Folding `applyBuild` over a chain keeps, for each kind of setting, the last one. -/
theorem foldl_applyBuild (bs : List (SBuild V)) (s : Exp V) :
    bs.foldl applyBuild s =
      let w := lastOf SBuild.window? (s.lo, s.hi) bs
      let m := lastOf SBuild.matcher? (s.accepts, s.descr) bs
      { lo := w.1, hi := w.2, accepts := m.1, descr := m.2
        answer := lastOf SBuild.answer? s.answer bs, attempts := s.attempts, served := s.served } := by
  induction bs generalizing s with
  | nil => simp [lastOf_nil]
  | cons b bs ih =>
    rw [List.foldl_cons, ih]
    simp only [lastOf_cons]
    cases b <;> rfl

theorem builds_sim (tid : Nat) (nightly : Bool) (d : Option V) (bs : List (SBuild V))
    (e : Expectation V) (s : Exp V) (q : Seqs) (h : Sim tid nightly d e s) (hs : s.served = [])
    (ht : TameBuilds bs) :
    ∃ e', Expectation.builds (bs.map (SBuild.code tid)) e q = (.ok (), e', q) ∧
      Sim tid nightly d e' (bs.foldl applyBuild s) := by
  induction bs generalizing e s with
  | nil => exact ⟨e, rfl, h⟩
  | cons b bs ih =>
    obtain ⟨e1, he1, hs1⟩ := build_sim tid nightly d e s b q h hs
      (fun a ha => ht b (List.mem_cons_self ..) a ha)
    obtain ⟨e2, he2, hs2⟩ := ih { e1 with chain := e.chain ++ [b.code tid] } (applyBuild s b)
      ⟨hs1.1, hs1.2, hs1.3, hs1.4, hs1.5, hs1.6, hs1.7⟩ hs
      (fun b' hb' => ht b' (List.mem_cons_of_mem _ hb'))
    refine ⟨e2, ?_, hs2⟩
    simp only [List.map_cons, Expectation.builds]
    rw [he1]
    exact he2

theorem new_sim (tid : Nat) (nightly : Bool) (info : FnInfo V) (hk : info.kind = .static) (g : Nat) :
    Sim tid nightly info.default (Expectation.new nightly info g) (Exp.make []) := by
  constructor <;>
    simp [Expectation.new, hk, Exp.make, lastOf_nil, Common.dflt, Times.dflt, TimesRange.dflt,
      usizeMax, Matcher.matches, Matcher.dflt, Matcher.display, RetSim]

theorem make_eq_foldl (bs : List (SBuild V)) : Exp.make bs = bs.foldl applyBuild (Exp.make []) := by
  rw [foldl_applyBuild]
  simp [Exp.make, lastOf_nil]

theorem expect_sim (tid : Nat) (nightly : Bool) (info : FnInfo V) (hk : info.kind = .static)
    (bs : List (SBuild V)) (ht : TameBuilds bs) (es : List (Expectation V)) (w : World V) :
    ∃ e, Expectations.expect nightly info (bs.map (SBuild.code tid)) es w =
        (.ok (), es ++ [e], { w with fresh := w.fresh + 1, made := w.made ++ [e.chain] }) ∧
      Sim tid nightly info.default e (Exp.make bs) := by
  obtain ⟨e, he, hs⟩ := builds_sim tid nightly info.default bs _ _ w.seqs (new_sim tid nightly info hk w.fresh) rfl ht
  refine ⟨e, ?_, ?_⟩
  · simp [Expectations.expect, he]
  · rw [make_eq_foldl]; exact hs

theorem Sim.acc_eq {tid : Nat} {nightly : Bool} {d : Option V} {e : Expectation V} {s : Exp V}
    (h : Sim tid nightly d e s) (args : List V) :
    (e.matches tid args).1 = .ok (s.accepts args) ∧ e.acc tid args = s.accepts args := by
  have h1 : (e.matches tid args).1 = .ok (s.accepts args) := by
    simp [Expectation.matches, Common.matches, h.poison, h.acc]
  exact ⟨h1, by simp [Expectation.acc, h1]⟩

theorem Sim.full_eq {tid : Nat} {nightly : Bool} {d : Option V} {e : Expectation V} {s : Exp V}
    (h : Sim tid nightly d e s) : e.full = decide (s.hi ≤ s.attempts) := by
  simp [Expectation.full, h.times]

/-- One call of an expectation that still accepts calls. -/
theorem call_sim_ready {tid : Nat} {nightly : Bool} {info : FnInfo V} {e : Expectation V} {s : Exp V}
    (h : Sim tid nightly info.default e s) (dbg : V → String) (args : List V) (w : World V)
    (hr : s.attempts < s.hi) :
    let o := e.call ⟨nightly, tid, dbg, id⟩ info args w
    o.1 = s.reply nightly info args ∧
    Sim tid nightly info.default o.2.1
      { s with attempts := s.attempts + 1, served := s.served ++ [args] } ∧
    o.2.2.seqs = w.seqs ∧
    o.2.2.runs = w.runs ++ (match s.runs with | some t => [⟨t, tid, args⟩] | none => []) := by
  obtain ⟨h1, h2, h3, h4, h5, h6, h7⟩ := h
  have hc : s.attempts ≠ usizeMax := by omega
  have hcall : e.common.call info.funcname (callDesc ⟨nightly, tid, dbg, id⟩ info args) w.seqs =
      (.ok (), { e.common with times := ⟨s.attempts + 1, ⟨s.lo, s.hi + 1⟩⟩ }, w.seqs) := by
    have : ¬ (s.hi + 1 ≤ s.attempts + 1) := by omega
    simp [Common.call, Times.call, h3, addOne, hc, atomicInc, this, Common.verifySequence, h2,
      Common.satisfySequence]
  have hcs : e.call ⟨nightly, tid, dbg, id⟩ info args w =
      Expectation.ret_call ⟨nightly, tid, dbg, id⟩ info args
        { e with common := { e.common with times := ⟨s.attempts + 1, ⟨s.lo, s.hi + 1⟩⟩ } }
        { w with log := w.log ++ [⟨e.gid, tid, args, true, id⟩] } := by
    simp [Expectation.call, hcall]
  rw [hcs]
  cases ha : s.answer with
  | fn tag f =>
    simp only [RetSim, ha] at h7
    rcases h7 with h7 | h7 <;>
      simp only [Expectation.ret_call, h7, StaticRfunc.callMut, Closure.call, Exp.reply, ha, Exp.runs,
        runEntry, ↓reduceIte, Bool.false_eq_true] <;>
      refine ⟨trivial, ?_, trivial, trivial⟩ <;> constructor <;> simp_all [RetSim]
  | once tag f =>
    simp only [RetSim, ha] at h7
    rcases hl : s.served with _ | ⟨a, _ | ⟨b, t⟩⟩ <;> simp only [hl, List.length_nil, List.length_cons] at h7
    · rcases h7 with h7 | h7 <;>
      simp only [Expectation.ret_call, h7, StaticRfunc.callMut, Closure.call, Exp.reply, ha, Exp.runs, hl,
        runEntry, ↓reduceIte, Bool.false_eq_true, List.length_nil] <;>
      refine ⟨trivial, ?_, trivial, trivial⟩ <;> constructor <;> simp_all [RetSim]
    · simp only [Expectation.ret_call, h7, StaticRfunc.callMut, Closure.call, Exp.reply, ha, Exp.runs, hl,
        runEntry, ↓reduceIte, Bool.false_eq_true, List.length_cons, List.length_nil]
      refine ⟨?_, ?_, trivial, ?_⟩
      · simp [h1, h6]
      · constructor <;> simp_all [RetSim]
      · simp
    · simp only [Expectation.ret_call, h7, StaticRfunc.callMut, Closure.call, Exp.reply, ha, Exp.runs, hl,
        runEntry, ↓reduceIte, Bool.false_eq_true, List.length_cons, List.length_nil]
      refine ⟨?_, ?_, trivial, ?_⟩
      · simp
      · constructor <;> simp_all [RetSim]
      · simp
  | unset =>
    simp only [RetSim, ha] at h7
    simp only [Expectation.ret_call, h7, StaticRfunc.callMut, Exp.reply, ha, Exp.runs, runEntry]
    cases nightly <;> cases hd : info.default <;> by_cases hs : s.served = [] <;>
      simp [hs, returnDefault, h1, h6] <;> constructor <;> simp_all [RetSim]

/-- A surplus call to an exhausted expectation (only possible when it is the only one). -/
theorem call_sim_surplus {tid : Nat} {nightly : Bool} {info : FnInfo V} {e : Expectation V} {s : Exp V}
    (h : Sim tid nightly info.default e s) (dbg : V → String) (args : List V) (w : World V)
    (hr : s.hi ≤ s.attempts) (hb : s.attempts < usizeMax) :
    let o := e.call ⟨nightly, tid, dbg, id⟩ info args w
    o.1 = .error (s.surplus info) ∧
    Sim tid nightly info.default o.2.1 { s with attempts := s.attempts + 1 } ∧
    o.2.2.seqs = w.seqs ∧ o.2.2.runs = w.runs := by
  obtain ⟨h1, h2, h3, h4, h5, h6, h7⟩ := h
  have hc : s.attempts ≠ usizeMax := by omega
  have hle : s.hi + 1 ≤ s.attempts + 1 := by omega
  have hcall : e.common.call info.funcname (callDesc ⟨nightly, tid, dbg, id⟩ info args) w.seqs =
      (.error (s.surplus info), { e.common with times := ⟨s.attempts + 1, ⟨s.lo, s.hi + 1⟩⟩ }, w.seqs) := by
    by_cases h0 : s.hi = 0 <;>
      simp [Common.call, Times.call, h3, addOne, hc, atomicInc, hr, Exp.surplus, h0, h1, h6, subOne]
  simp only [Expectation.call, hcall]
  refine ⟨trivial, ?_, trivial, trivial⟩
  constructor <;> simp_all

/-- Pointwise simulation of the two lists of expectations. -/
def SimList (tid : Nat) (nightly : Bool) (d : Option V) : List (Expectation V) → List (Exp V) → Prop
  | [], [] => True
  | e :: es, s :: ss => Sim tid nightly d e s ∧ SimList tid nightly d es ss
  | _, _ => False

theorem SimList.append {tid : Nat} {nightly : Bool} {d : Option V} {es : List (Expectation V)}
    {ss : List (Exp V)} (h : SimList tid nightly d es ss) {e : Expectation V} {s : Exp V}
    (he : Sim tid nightly d e s) : SimList tid nightly d (es ++ [e]) (ss ++ [s]) := by
  induction es generalizing ss with
  | nil => cases ss <;> simp_all [SimList]
  | cons x xs ih => cases ss <;> simp_all [SimList]

theorem SimList.set {tid : Nat} {nightly : Bool} {d : Option V} {es : List (Expectation V)}
    {ss : List (Exp V)} (h : SimList tid nightly d es ss) (i : Nat) {e : Expectation V} {s : Exp V}
    (he : Sim tid nightly d e s) : SimList tid nightly d (es.set i e) (ss.set i s) := by
  induction es generalizing ss i with
  | nil => cases ss <;> simp_all [SimList]
  | cons x xs ih =>
    cases ss with
    | nil => simp [SimList] at h
    | cons y ys => cases i <;> simp_all [SimList]

theorem SimList.get {tid : Nat} {nightly : Bool} {d : Option V} {es : List (Expectation V)}
    {ss : List (Exp V)} (h : SimList tid nightly d es ss) (i : Nat) {s : Exp V} (hs : ss[i]? = some s) :
    ∃ e, es[i]? = some e ∧ Sim tid nightly d e s := by
  induction es generalizing ss i with
  | nil => cases ss <;> simp_all [SimList]
  | cons x xs ih =>
    cases ss with
    | nil => simp [SimList] at h
    | cons y ys =>
      cases i with
      | zero => simp at hs; exact ⟨x, rfl, hs ▸ h.1⟩
      | succ i => simp at hs ⊢; exact ih h.2 i hs

theorem SimList.length {tid : Nat} {nightly : Bool} {d : Option V} {es : List (Expectation V)}
    {ss : List (Exp V)} (h : SimList tid nightly d es ss) : es.length = ss.length := by
  induction es generalizing ss with
  | nil => cases ss <;> simp_all [SimList]
  | cons x xs ih => cases ss <;> simp_all [SimList]; exact ih h.2

theorem SimList.mem {tid : Nat} {nightly : Bool} {d : Option V} {es : List (Expectation V)}
    {ss : List (Exp V)} (h : SimList tid nightly d es ss) {e : Expectation V} (he : e ∈ es) :
    ∃ s ∈ ss, Sim tid nightly d e s := by
  induction es generalizing ss with
  | nil => simp at he
  | cons x xs ih =>
    cases ss with
    | nil => simp [SimList] at h
    | cons y ys =>
      rcases List.mem_cons.mp he with rfl | he
      · exact ⟨y, List.mem_cons_self .., h.1⟩
      · obtain ⟨s, hs, hS⟩ := ih h.2 he
        exact ⟨s, List.mem_cons_of_mem _ hs, hS⟩

theorem SimList.findIdx {tid : Nat} {nightly : Bool} {d : Option V} {es : List (Expectation V)}
    {ss : List (Exp V)} (h : SimList tid nightly d es ss) (args : List V) (n : Nat) :
    es.findIdx? (fun e => e.acc tid args && (!e.full || n == 1)) =
      ss.findIdx? (fun s => s.ready args || (s.accepts args && n == 1)) := by
  induction es generalizing ss with
  | nil => cases ss <;> simp_all [SimList]
  | cons x xs ih =>
    cases ss with
    | nil => simp [SimList] at h
    | cons y ys =>
      have hx : (x.acc tid args && (!x.full || n == 1)) =
          (y.ready args || (y.accepts args && n == 1)) := by
        rw [(h.1.acc_eq args).2, h.1.full_eq, Exp.ready]
        by_cases hlt : y.attempts < y.hi
        · have : ¬ y.hi ≤ y.attempts := by omega
          cases y.accepts args <;> simp [hlt, this]
        · have : y.hi ≤ y.attempts := by omega
          simp [hlt, this]
      rw [List.findIdx?_cons, List.findIdx?_cons, hx, ih h.2]

theorem SimList.side {tid : Nat} {nightly : Bool} {d : Option V} {es : List (Expectation V)}
    {ss : List (Exp V)} (h : SimList tid nightly d es ss) (args : List V) :
    NoPredPanic tid args es ∧ PosEnds es := by
  refine ⟨fun e he => ?_, fun e he => ?_⟩
  · obtain ⟨s, _, hs⟩ := h.mem he
    exact ⟨_, (hs.acc_eq args).1⟩
  · obtain ⟨s, _, hs⟩ := h.mem he
    rw [hs.times]; simp

/-- No expectation of the specification state has had `n` or more calls. -/
def Below (n : Nat) (ss : List (Exp V)) : Prop := ∀ s ∈ ss, s.attempts < n

/-- One call of the method. -/
theorem method_sim {tid : Nat} {nightly : Bool} {info : FnInfo V} {es : List (Expectation V)}
    {s : State V} (h : SimList tid nightly info.default es s.exps) (dbg : V → String)
    (args : List V) (w : World V) (hw : w.runs = s.runs) (hb : Below usizeMax s.exps) :
    let o := Expectations.method ⟨nightly, tid, dbg, id⟩ info args es w
    let p := s.call nightly dbg info tid args
    o.1 = p.1 ∧ SimList tid nightly info.default o.2.1 p.2.exps ∧ o.2.2.seqs = w.seqs ∧
      o.2.2.runs = p.2.runs := by
  obtain ⟨hn, hp⟩ := h.side args
  simp only [Expectations.method, Expectations.call]
  rw [callScan_eq _ _ _ _ _ _ hn hp, h.findIdx args es.length]
  have hl := h.length
  unfold State.call
  cases hr : s.exps.findIdx? (·.ready args) with
  | some i =>
    -- a ready expectation exists
    have hsame : s.exps.findIdx? (fun s => s.ready args || (s.accepts args && es.length == 1)) = some i := by
      rw [List.findIdx?_eq_some_iff_getElem] at hr ⊢
      obtain ⟨hi, hri, hlt⟩ := hr
      refine ⟨hi, by simp [hri], fun j hj => ?_⟩
      have h1 : es.length ≠ 1 := by omega
      have := hlt j hj
      simp [h1, this]
    rw [hsame]
    obtain ⟨hi, hri, _⟩ := List.findIdx?_eq_some_iff_getElem.mp hr
    have hget : s.exps[i]? = some s.exps[i] := List.getElem?_eq_getElem hi
    obtain ⟨e, he, hS⟩ := h.get i hget
    simp only [he, hget]
    have hlt : s.exps[i].attempts < s.exps[i].hi := by
      simp [Exp.ready] at hri; exact hri.2
    obtain ⟨c1, c2, c3⟩ := call_sim_ready hS dbg args w hlt
    refine ⟨?_, h.set i c2, ?_⟩
    · rw [c1]
      cases s.exps[i].reply nightly info args <;> rfl
    · rw [← hw]; exact c3
  | none =>
    have hnr := List.findIdx?_eq_none_iff.mp hr
    rcases hs : s.exps with _ | ⟨x, _ | ⟨y, t⟩⟩
    · simp_all [expectMatch, callDesc]
    · -- a single expectation
      have h1 : es.length = 1 := by rw [hl, hs]; rfl
      rw [hs] at h hnr hb
      obtain ⟨e, rfl⟩ := List.length_eq_one_iff.mp h1
      have hS : Sim tid nightly info.default e x := h.1
      have hxr := hnr x (List.mem_cons_self ..)
      by_cases hacc : x.accepts args
      · have hle : x.hi ≤ x.attempts := by
          simp [Exp.ready, hacc] at hxr; exact hxr
        obtain ⟨c1, c2, c3⟩ := call_sim_surplus hS dbg args w hle
          (hb x (List.mem_cons_self ..))
        simp only [List.findIdx?_cons, hxr, hacc, List.length_singleton, BEq.rfl, Bool.and_self,
          Bool.or_true, ↓reduceIte, List.getElem?_cons_zero, List.set_cons_zero]
        refine ⟨?_, ⟨c2, trivial⟩, c3.1, c3.2.trans hw⟩
        rw [c1]; rfl
      · simp only [List.findIdx?_cons, hxr, hacc]
        simp_all [expectMatch, callDesc]
    · have h1 : es.length ≠ 1 := by rw [hl, hs]; simp
      have hnone : s.exps.findIdx? (fun s => s.ready args || (s.accepts args && es.length == 1)) = none := by
        rw [List.findIdx?_eq_none_iff]
        intro z hz
        simp [hnr z hz, h1]
      rw [← hs, hnone]
      simp only [hs]
      exact ⟨rfl, hs ▸ h, trivial, hw⟩

theorem call_below {nightly : Bool} {dbg : V → String} {info : FnInfo V} {tid : Nat} {s : State V}
    {args : List V} {n : Nat} (h : Below n s.exps) :
    Below (n + 1) (s.call nightly dbg info tid args).2.exps := by
  have hw : Below (n + 1) s.exps := fun x hx => Nat.lt_succ_of_lt (h x hx)
  unfold State.call
  cases hr : s.exps.findIdx? (·.ready args) with
  | some i =>
    simp only
    cases hg : s.exps[i]? with
    | none => exact hw
    | some e =>
      intro x hx
      rcases List.mem_or_eq_of_mem_set hx with hx | hx
      · exact hw x hx
      · subst hx
        have := h e (List.mem_of_getElem? hg)
        simp; omega
  | none =>
    simp only
    split
    · rename_i e he
      split
      · intro x hx
        simp at hx
        subst hx
        have := h e (he ▸ List.mem_cons_self ..)
        simp; omega
      · exact hw
    · exact hw

theorem run_sim (tid : Nat) (nightly : Bool) (info : FnInfo V) (hk : info.kind = .static)
    (dbg : V → String) (ops : List (SOp V)) (es : List (Expectation V)) (w : World V) (s : State V)
    (ht : TameOps ops) (h : SimList tid nightly info.default es s.exps) (hw : w.runs = s.runs)
    (n : Nat) (hb : Below n s.exps) (hn : n + ops.length ≤ usizeMax) :
    let o := MState.run nightly dbg info (ops.map (SOp.code tid)) ⟨es, w⟩
    let p := s.run nightly dbg info tid ops
    o.1 = p.1 ∧ SimList tid nightly info.default o.2.exps p.2.exps ∧ o.2.world.seqs = w.seqs ∧
      o.2.world.runs = p.2.runs := by
  induction ops generalizing es s n w with
  | nil => exact ⟨rfl, h, rfl, hw⟩
  | cons op ops ih =>
    have ht' : TameOps ops := fun x hx => ht x (List.mem_cons_of_mem _ hx)
    cases op with
    | expect bs =>
      obtain ⟨e, he, hS⟩ := expect_sim tid nightly info hk bs
        (ht _ (List.mem_cons_self ..) bs rfl) es w
      have hb' : Below (n + 1) (s.exps ++ [Exp.make bs]) := by
        intro x hx
        rcases List.mem_append.mp hx with hx | hx
        · exact Nat.lt_succ_of_lt (hb x hx)
        · simp at hx; subst hx; simp [Exp.make]
      have := ih (es ++ [e]) { w with fresh := w.fresh + 1, made := w.made ++ [e.chain] } ⟨s.exps ++ [Exp.make bs], s.runs⟩ ht'
        (h.append hS) hw (n + 1) hb' (by simp at hn ⊢; omega)
      simp only [List.map_cons, SOp.code, MState.run, MState.step, State.run, State.step] at this ⊢
      rw [he]
      simp only
      exact ⟨by rw [this.1], this.2.1, this.2.2⟩
    | call args =>
      have hbu : Below usizeMax s.exps := fun x hx => by
        have := hb x hx; simp at hn; omega
      obtain ⟨c1, c2, c3, c4⟩ := method_sim h dbg args w hw hbu
      have := ih _ (Expectations.method ⟨nightly, tid, dbg, id⟩ info args es w).2.2
        (s.call nightly dbg info tid args).2 ht' c2 c4 (n + 1) (call_below hb)
        (by simp at hn ⊢; omega)
      simp only [List.map_cons, SOp.code, MState.run, MState.step, State.run, State.step] at this ⊢
      rw [c1]
      exact ⟨by rw [this.1], this.2.1, this.2.2.1.trans c3, this.2.2.2⟩

end Mockall
