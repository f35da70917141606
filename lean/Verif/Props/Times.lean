import Verif.Lemmas.Sole
import Verif.Lemmas.Refine

/-! # C01-C05: call counts and builder chains -/

set_option linter.unusedSimpArgs false

namespace Mockall.Props

open Spec

variable {V : Type}

/-- `m` is the largest call count the argument spells (among counts below `usize::MAX`). -/
structure IsMax (a : TimesArg) (m : Nat) : Prop where
  permitted : permits a m
  bound : m < usizeMax
  greatest : ∀ k, k < usizeMax → permits a k → k ≤ m

theorem IsMax.eq_window {a : TimesArg} {m : Nat} (h : IsMax a m) (ht : Tame a) : m = (window a).2 := by
  have h1 := (window_permits a ht m h.bound).mp h.permitted
  have hw : (window a).2 < usizeMax := by have := (from_tame a ht).2; omega
  have hle : (window a).1 ≤ (window a).2 := by
    cases a <;> simp only [Tame, window, usizeMax] at * <;> omega
  have h2 := h.greatest (window a).2 hw ((window_permits a ht _ hw).mpr ⟨hle, Nat.le_refl _⟩)
  omega

/-- A call: thread, arguments, what is written through a returned `&mut`. -/
abbrev CallSpec (V : Type) := Nat × List V × (V → V)

/-- The corresponding operation. -/
def callOp (c : CallSpec V) : MOp V := .call c.1 c.2.1 c.2.2

/-- The panic of surplus call number `i + 1` against a maximum of `m`. -/
def surplus (info : FnInfo V) (descr : String) (m i : Nat) : MObs V :=
  .returned (.error (.call info.funcname descr (if m = 0 then .shouldNot else .tooMany (i + 1) m)))

private theorem ceiling_loop (nightly : Bool) (dbg : V → String) (info : FnInfo V) (m : Nat)
    (hm : m < usizeMax) (calls : List (CallSpec V)) (e : Expectation V) (w : World V)
    (hs : e.common.seqHandle = none) (hp : e.common.mpoison = false)
    (hr : e.common.times.range.end_ = m + 1)
    (hl : e.common.times.count + calls.length ≤ usizeMax)
    (ha : ∀ c ∈ calls, e.common.matcher.matches c.1 c.2.1 = .ok true) :
    let o := MState.run nightly dbg info (calls.map callOp) ⟨[e], w⟩
    o.2.world.log = w.log ++ calls.mapIdx (fun i c =>
      (⟨e.gid, c.1, c.2.1, decide (e.common.times.count + i < m), c.2.2⟩ : Hit V)) ∧
    (∀ i, i < calls.length → m ≤ e.common.times.count + i →
      o.1[i]? = some (surplus info e.common.matcher.display m (e.common.times.count + i))) ∧
    (∀ v, (e.ret = .ref (.const v) ∨ ∃ h t, e.ret = .static (.mut ⟨fun _ _ => .ok v, h, t⟩) false) →
      ∀ i, i < calls.length → e.common.times.count + i < m → o.1[i]? = some (.returned (.ok v))) := by
  induction calls generalizing e w with
  | nil => simp [MState.run]
  | cons c cs ih =>
    have hlt : e.common.times.count < usizeMax := by simp at hl; omega
    have hmatch : e.matches c.1 c.2.1 = (.ok true, e) := by
      simp [Expectation.matches, Common.matches, hp, ha c (List.mem_cons_self ..)]
    have hpos : 0 < e.common.times.range.end_ := by omega
    have hmeth := method_sole ⟨nightly, c.1, dbg, c.2.2⟩ info c.2.1 e w hmatch hpos
    have hfr := Expectation.call_frame ⟨nightly, c.1, dbg, c.2.2⟩ info c.2.1 e w
    obtain ⟨b, hb, hw⟩ := Expectation.call_world ⟨nightly, c.1, dbg, c.2.2⟩ info c.2.1 e w
    have hv := Common.call_noseq info.funcname (callDesc ⟨nightly, c.1, dbg, c.2.2⟩ info c.2.1)
      e.common w.seqs hs hp hlt hpos
    have hcases := Expectation.call_cases ⟨nightly, c.1, dbg, c.2.2⟩ info c.2.1 e w
    have hb' : b = decide (e.common.times.count < m) := by
      rw [hv] at hb
      by_cases h : e.common.times.count < m
      · have : e.common.times.count + 1 < e.common.times.range.end_ := by omega
        simp [this] at hb; simp [hb, h]
      · have : ¬ e.common.times.count + 1 < e.common.times.range.end_ := by omega
        simp [this] at hb; simp [hb, h]
    have hinc : atomicInc e.common.times.count = e.common.times.count + 1 := by
      have : e.common.times.count ≠ usizeMax := by omega
      simp [atomicInc, this]
    simp only [List.map_cons, MState.run, callOp, MState.step, hmeth]
    generalize ho : e.call ⟨nightly, c.1, dbg, c.2.2⟩ info c.2.1 w = o at *
    simp only at hfr hw
    have hcom : o.2.1.common = { e.common with times := ⟨e.common.times.count + 1, e.common.times.range⟩ } := by
      rw [hfr, hinc]
    have hgid : o.2.1.gid = e.gid := by rw [hfr]
    obtain ⟨i1, i2, i3⟩ := ih o.2.1 o.2.2 (by rw [hcom]; exact hs) (by rw [hcom]; exact hp)
      (by rw [hcom]; exact hr) (by rw [hcom]; simp at hl ⊢; omega)
      (fun x hx => by rw [hcom]; exact ha x (List.mem_cons_of_mem _ hx))
    have hcnt : o.2.1.common.times.count = e.common.times.count + 1 := by rw [hcom]
    have hmat : o.2.1.common.matcher = e.common.matcher := by rw [hcom]
    rw [hcnt] at i1 i2 i3
    rw [hmat] at i2
    refine ⟨?_, ?_, ?_⟩
    · rw [i1, hw]
      simp only [List.mapIdx_cons, List.append_assoc, List.singleton_append, hgid, hb', Nat.add_zero,
        Nat.add_assoc, Nat.add_comm 1]
    · intro i hi hmi
      cases i with
      | zero =>
        have hge : ¬ e.common.times.count + 1 < e.common.times.range.end_ := by omega
        dsimp only at hcases
        rw [hv, hr] at hcases
        have : ¬ e.common.times.count + 1 < m + 1 := by omega
        simp only [this, ↓reduceIte] at hcases
        rcases hcases with ⟨p, hp', h⟩ | ⟨hp', _⟩
        · rw [h]
          cases hp'
          simp [surplus]
        · simp at hp'
      | succ i =>
        have := i2 i (by simpa using hi) (by omega)
        simpa [Nat.add_assoc, Nat.add_comm 1] using this
    · intro v hret i hi hmi
      have hcl : o.1 = .ok v ∧ (o.2.1.ret = .ref (.const v) ∨
          ∃ h t, o.2.1.ret = .static (.mut ⟨fun _ _ => .ok v, h, t⟩) false) := by
        dsimp only at hcases
        rw [hv, hr] at hcases
        have : e.common.times.count + 1 < m + 1 := by omega
        simp only [this, ↓reduceIte] at hcases
        rcases hcases with ⟨p, hp', _⟩ | ⟨_, h⟩
        · simp at hp'
        · rw [h]
          rcases hret with hret | ⟨hh, t, hret⟩
          · simp [Expectation.ret_call, hret, RefRfunc.call]
          · simp [Expectation.ret_call, hret, StaticRfunc.callMut, Closure.call]
      cases i with
      | zero => simp [hcl.1]
      | succ i =>
        have := i3 v hcl.2 i (by simpa using hi) (by omega)
        simpa using this

/-- **C01** (any kind of method, any return setters).  One expectation `expect().times(a)` with any
return value setters: of the calls made on it, on any threads with any arguments, exactly the first
`m` pass, where `m` is the largest count `a` permits; call number `i + 1` for `i ≥ m` panics with
`should not have been called` if `m = 0` and otherwise names its ordinal and `m`. -/
theorem C01_ceiling (nightly : Bool) (dbg : V → String) (info : FnInfo V) (a : TimesArg) (m : Nat)
    (ht : Tame a) (hm : IsMax a m) (rets : List (Build V)) (hrets : ∀ b ∈ rets, b.isReturn = true)
    (calls : List (CallSpec V)) (hl : calls.length ≤ usizeMax) (w : World V) :
    let o := MState.run nightly dbg info (.expect (.times a :: rets) :: calls.map callOp) (MState.init w)
    o.2.world.log = w.log ++
      calls.mapIdx (fun i c => (⟨w.fresh, c.1, c.2.1, decide (i < m), c.2.2⟩ : Hit V)) ∧
    ∀ i, i < calls.length → m ≤ i → o.1[i + 1]? = some (surplus info "<anything>" m i) := by
  have hwin := hm.eq_window ht
  obtain ⟨hf, hle⟩ := from_tame a ht
  let e0 : Expectation V := { Expectation.new nightly info w.fresh with
    common := { (Common.dflt : Common V) with times := ⟨0, ⟨(window a).1, (window a).2 + 1⟩⟩ }
    chain := [.times a] }
  have hcl : e0.ret.clean = true := (Cfg.new nightly info w.fresh).clean
  obtain ⟨e, he, hcom, hgid, hclean⟩ := builds_return hrets e0 w.seqs rfl hcl
  have hexp : Expectations.expect nightly info (.times a :: rets) [] w =
      (.ok (), [e], { w with fresh := w.fresh + 1, made := w.made ++ [e.chain] }) := by
    simp only [Expectations.expect, Expectation.builds, Expectation.build, Times.times]
    rw [hf]
    simp only
    have : (Expectation.new nightly info w.fresh).chain = [] := rfl
    simp only [this, List.nil_append]
    have h0 : ({ Expectation.new nightly info w.fresh with
        chain := [.times a]
        common := { (Expectation.new nightly info w.fresh).common with
          times := { (Expectation.new nightly info w.fresh).common.times with
            range := ⟨(window a).1, (window a).2 + 1⟩ } } } : Expectation V) = e0 := rfl
    rw [h0, he]
  have hgid' : e.gid = w.fresh := hgid
  have hloop := ceiling_loop nightly dbg info m hm.bound calls e { w with fresh := w.fresh + 1, made := w.made ++ [e.chain] }
    (by rw [hcom]; rfl) (by rw [hcom]; rfl) (by rw [hcom, hwin]) (by rw [hcom]; simpa [e0] using hl)
    (fun c _ => by rw [hcom]; rfl)
  have hcnt : e.common.times.count = 0 := by rw [hcom]
  rw [hcnt, hgid'] at hloop
  obtain ⟨h1, h2, _⟩ := hloop
  have hdisp : e.common.matcher.display = "<anything>" := by rw [hcom]; rfl
  simp only [MState.run, MState.step, MState.init, hexp]
  refine ⟨by simpa using h1, ?_⟩
  intro i hi hmi
  have := h2 i hi (by omega)
  simp [hdisp] at this
  simpa using this

/-- **C01, observable form**: with `return_const(v)` on a method returning an owned value, the
outcomes are exactly: `m` times `v`, then panics. -/
theorem C01_ceiling_const (nightly : Bool) (dbg : V → String) (info : FnInfo V)
    (hk : info.kind = .static) (a : TimesArg) (m : Nat) (ht : Tame a) (hm : IsMax a m) (v : V)
    (calls : List (CallSpec V)) (hl : calls.length ≤ usizeMax) (w : World V) :
    (MState.run nightly dbg info (.expect [.times a, .returnConst v] :: calls.map callOp)
      (MState.init w)).1 =
    .expected (.ok ()) :: calls.mapIdx fun i _ =>
      if i < m then .returned (.ok v) else surplus info "<anything>" m i := by
  have hwin := hm.eq_window ht
  obtain ⟨hf, hle⟩ := from_tame a ht
  let e : Expectation V :=
    { gid := w.fresh, info := info, chain := [.times a, .returnConst v]
      common := { (Common.dflt : Common V) with times := ⟨0, ⟨(window a).1, (window a).2 + 1⟩⟩ }
      ret := .static (.mut ⟨fun _ _ => .ok v, [], 0⟩) false }
  have hexp : Expectations.expect nightly info [.times a, .returnConst v] [] w =
      (.ok (), [e], { w with fresh := w.fresh + 1, made := w.made ++ [e.chain] }) := by
    simp [Expectations.expect, Expectation.builds, Expectation.build, Times.times, hf,
      Expectation.new, hk, Expectation.setStatic, constClosure, e, Common.dflt, Times.dflt]
  obtain ⟨_, h2, h3⟩ := ceiling_loop nightly dbg info m hm.bound calls e { w with fresh := w.fresh + 1, made := w.made ++ [e.chain] }
    rfl rfl (by simp [e, hwin]) (by simpa [e] using hl) (fun c _ => rfl)
  have hlen : ∀ (ops : List (MOp V)) (s : MState V), (MState.run nightly dbg info ops s).1.length = ops.length := by
    intro ops
    induction ops with
    | nil => intro s; rfl
    | cons op ops ih => intro s; simp [MState.run, ih]
  simp only [MState.run, MState.step, MState.init, hexp]
  congr 1
  apply List.ext_getElem?
  intro i
  by_cases hi : i < calls.length
  · by_cases hmi : i < m
    · rw [h3 v (.inr ⟨[], 0, rfl⟩) i hi (by simpa [e] using hmi)]
      simp [hi, hmi]
    · rw [h2 i hi (by simp [e]; omega)]
      simp [hi, hmi, e]
      rfl
  · have h1 : (MState.run nightly dbg info (calls.map callOp) ⟨[e], { w with fresh := w.fresh + 1, made := w.made ++ [e.chain] }⟩).1.length ≤ i := by
      rw [hlen]; simp; omega
    rw [List.getElem?_eq_none h1, List.getElem?_eq_none (by simp; omega)]

/-- The hypotheses are met by, e.g., `times(2..5)`, whose largest count is 4 ... -/
example : Tame (.range 2 5) ∧ IsMax (.range 2 5) 4 :=
  ⟨by decide, ⟨by decide, by decide, fun k _ h => by simp only [permits] at h; omega⟩⟩

/-- ... and with it three outcomes of a run of six calls look as expected. -/
example :
    let info : FnInfo Nat := ⟨.static, "MockFoo::foo", "MockFoo::foo", none⟩
    let o := MState.run false toString info
      (.expect [.times (.range 2 5), .returnConst 7] :: List.replicate 6 (.call 0 [1] id))
      (MState.init ⟨fun _ => SeqState.new, 0, [], [], []⟩)
    o.1.map (fun | .returned (.ok v) => some v | _ => none) =
      [none, some 7, some 7, some 7, some 7, none, none] := by decide

/-- **C01 in whole programs**: in every program over any mock objects and static functions, for every
live expectation that is in no sequence, of the calls dispatched to it exactly the first `m` got
through, `m` being the largest count its `times` argument permits. -/
theorem C01_ceiling_program (env : Env V) (sts : List (MethodInfo V)) (ops : List (Op V)) :
    let s := (Sys.run env ops (Sys.init sts)).2
    ∀ e ∈ s.all, ∀ m, Tame (countArg e.chain) → IsMax (countArg e.chain) m →
      (∀ b ∈ e.chain, isInSequence b = false) → s.world.log.length ≤ usizeMax →
      ∀ before h after, s.world.log = before ++ h :: after → h.gid = e.gid →
        (h.passed = true ↔ before.countP (·.gid == e.gid) < m) := by
  intro s e he m ht hm hseq hl before h after hlog hg
  have hL := (sysInv_run env sts ops).live e he
  have hs : e.common.seqHandle = none := by
    have := hL.seq
    have h0 : lastOf sequenceOf none e.chain = (none : Option Nat) := by
      have : e.chain.filterMap sequenceOf = [] := by
        rw [List.filterMap_eq_nil_iff]
        intro b hb
        have := hseq b hb
        cases b <;> simp [sequenceOf, isInSequence] at this ⊢
      simp [lastOf, this]
    rw [h0] at this
    simpa using this
  have hr := hL.range
  rw [lastOf_countOf] at hr
  have := hL.exact hl hs before h after hlog hg
  rw [this, hm.eq_window ht, hr]
  have : (halfOpen (countArg e.chain)).end_ - 1 = (window (countArg e.chain)).2 := by
    cases countArg e.chain <;> simp [halfOpen, window]
  rw [this]
  exact Iff.rfl

/-- ... and in a sequence or not, never more than `m` calls get through. -/
theorem C01_never_more (env : Env V) (sts : List (MethodInfo V)) (ops : List (Op V)) :
    let s := (Sys.run env ops (Sys.init sts)).2
    ∀ e ∈ s.all, ∀ m, Tame (countArg e.chain) → IsMax (countArg e.chain) m →
      s.world.log.length ≤ usizeMax →
      s.world.log.countP (fun h => h.gid == e.gid && h.passed) ≤ m := by
  intro s e he m ht hm hl
  have hL := (sysInv_run env sts ops).live e he
  have hr := hL.range
  rw [lastOf_countOf] at hr
  have h := (hL.ceiling hl).2
  rw [hm.eq_window ht]
  have : (halfOpen (countArg e.chain)).end_ - 1 = (window (countArg e.chain)).2 := by
    cases countArg e.chain <;> simp [halfOpen, window]
  rw [← this, ← hr]
  exact h

/-! ## C02: the verdict at verification -/

theorem permits_halfOpen (a : TimesArg) (k : Nat) (hk : k < usizeMax) :
    permits a k ↔ (halfOpen a).start ≤ k ∧ k < (halfOpen a).end_ := by
  cases a <;> simp only [permits, halfOpen, true_iff, Nat.zero_le, true_and, hk, and_true] <;> omega

/-- **C02, verdict**: in every program, dropping a live expectation (outside of a panic) succeeds iff
the number of calls dispatched to it, counting rejected surplus calls, is permitted by its `times`
argument.  The only proviso is that none of the program's calls made its argument matcher panic. -/
theorem C02_verdict (env : Env V) (sts : List (MethodInfo V)) (ops : List (Op V)) (info : FnInfo V) :
    let s := (Sys.run env ops (Sys.init sts)).2
    ∀ e ∈ s.all, s.world.log.length < usizeMax →
      (∀ op ∈ ops, ∀ tid args upd, op.callInfo? = some (tid, args, upd) →
        ∃ b, verdict tid args e.chain = .ok b) →
      (e.drop false info = .ok () ↔
        permits (countArg e.chain) (s.world.log.countP (·.gid == e.gid))) := by
  intro s e he hl hnp
  have hL := (sysInv_run env sts ops).live e he
  have hp : e.common.mpoison = false := by
    cases h : e.common.mpoison with
    | false => rfl
    | true =>
      obtain ⟨op, hop, tid, args, upd, p, h1, h2⟩ := hL.poison h
      obtain ⟨b, hb⟩ := hnp op hop tid args upd h1
      rw [hL.matcher, verdict_matches, hb] at h2
      simp at h2
  have hr := hL.range
  rw [lastOf_countOf] at hr
  have hc : e.common.times.count = s.world.log.countP (·.gid == e.gid) := hL.count (Nat.le_of_lt hl)
  have hk : s.world.log.countP (·.gid == e.gid) < usizeMax := by
    have := hits_le e.gid s.world.log
    unfold hits at this
    omega
  rw [permits_halfOpen _ _ hk, ← hr, ← hc]
  simp only [Expectation.drop, Common.drop, hp, Times.isSatisfied]
  by_cases h1 : e.common.times.range.start ≤ e.common.times.count <;>
    by_cases h2 : e.common.times.count < e.common.times.range.end_ <;> simp [h1, h2]
  split <;> simp

theorem halfOpen_window {a : TimesArg} (ht : Tame a) :
    halfOpen a = ⟨(window a).1, (window a).2 + 1⟩ ∧ (window a).1 ≤ (window a).2 := by
  have hu : 0 < usizeMax := by simp [usizeMax]
  cases a <;> simp only [Tame, halfOpen, window] at * <;>
    refine ⟨?_, by omega⟩ <;> first | exact trivial | rfl | (congr 1; omega)

/-- **C02, message**: when verification fails, the panic names the function, the matcher, the exact
number of calls and the bound that is violated. -/
theorem C02_message (env : Env V) (sts : List (MethodInfo V)) (ops : List (Op V)) (info : FnInfo V) :
    let s := (Sys.run env ops (Sys.init sts)).2
    ∀ e ∈ s.all, s.world.log.length < usizeMax → Tame (countArg e.chain) →
      (∀ op ∈ ops, ∀ tid args upd, op.callInfo? = some (tid, args, upd) →
        ∃ b, verdict tid args e.chain = .ok b) →
      let n := s.world.log.countP (·.gid == e.gid)
      let descr := (lastOf matcherOf .always e.chain).display
      (n < (window (countArg e.chain)).1 →
        e.drop false info = .error (.tooFewAtDrop info.funcname descr n (window (countArg e.chain)).1)) ∧
      ((window (countArg e.chain)).2 < n →
        e.drop false info = .error (.tooManyAtDrop info.funcname descr n (window (countArg e.chain)).2)) := by
  intro s e he hl ht hnp n descr
  have hL := (sysInv_run env sts ops).live e he
  have hp : e.common.mpoison = false := by
    cases h : e.common.mpoison with
    | false => rfl
    | true =>
      obtain ⟨op, hop, tid, args, upd, p, h1, h2⟩ := hL.poison h
      obtain ⟨b, hb⟩ := hnp op hop tid args upd h1
      rw [hL.matcher, verdict_matches, hb] at h2
      simp at h2
  have hr := hL.range
  rw [lastOf_countOf] at hr
  have hc : e.common.times.count = n := hL.count (Nat.le_of_lt hl)
  obtain ⟨hw, hle⟩ := halfOpen_window ht
  rw [hw] at hr
  simp only [Expectation.drop, Common.drop, hp, Times.isSatisfied, hr, hc, hL.matcher,
    Times.minimum, Times.maximum, subOne]
  refine ⟨fun h => ?_, fun h => ?_⟩
  · have : ¬ (window (countArg e.chain)).1 ≤ n := by omega
    simp [this, descr]
  · have h1 : (window (countArg e.chain)).1 ≤ n := by omega
    have h2 : ¬ n < (window (countArg e.chain)).2 + 1 := by omega
    simp [h1, h2, descr]

/-- A program with two expectations on one object that are used 3 and 0 times. -/
def demoOps : List (Op Nat) :=
  let mi : MethodInfo Nat := ⟨false, ⟨.static, "MockFoo::foo", "MockFoo::foo", none⟩, fun _ => none⟩
  [.new [mi],
   .expect 0 0 0 [.times (.range 1 3), .withf (fun as => .ok (as == [1])), .returnConst 5],
   .expect 0 0 0 [.times (.rangeFrom 1), .returnConst 6],
   .call 0 0 0 0 [1] id, .call 0 0 0 0 [1] id, .call 0 0 0 0 [1] id]

/-- The first expectation got two calls and is fine, the second one took the third. -/
example : let s := (Sys.run ⟨false, toString, id⟩ demoOps (Sys.init [])).2
    s.all.map (fun e => s.world.log.countP (·.gid == e.gid)) = [2, 1] := by decide

example : let s := (Sys.run ⟨false, toString, id⟩ demoOps (Sys.init [])).2
    s.all.length = 2 ∧ s.world.log.length < usizeMax ∧ ∀ e ∈ s.all, Tame (countArg e.chain) := by
  decide

/-! ## C03: what a `times` argument means -/

/-- **C03** (partial: the number of calls stays below `usize::MAX`).  If `times(a)` is accepted, then
verification of the expectation after `k` calls succeeds iff `k` is in the range `a` spells. -/
theorem C03_denotation_partial (a : TimesArg) (e e' : Expectation V) (q q' : Seqs)
    (h : e.build (.times a) q = (.ok (), e', q')) (hp : e.common.mpoison = false) (info : FnInfo V)
    (k : Nat) (hk : k < usizeMax) :
    Expectation.drop false info
      { e' with common := { e'.common with times := { e'.common.times with count := k } } } = .ok ()
      ↔ permits a k := by
  have hr : e'.common.times.range = halfOpen a := by
    simp only [Expectation.build, Times.times] at h
    split at h
    · simp at h
    · rename_i r hf
      simp at h
      rw [← h.1, ← from_halfOpen hf]
  have hp' : e'.common.mpoison = false := by
    have := (Expectation.build_frame (.times a) e q).2.2.1
    rw [h] at this
    exact this.trans hp
  rw [permits_halfOpen a k hk, ← hr]
  simp only [Expectation.drop, Common.drop, hp', Times.isSatisfied]
  by_cases h1 : e'.common.times.range.start ≤ k <;>
    by_cases h2 : k < e'.common.times.range.end_ <;> simp [h1, h2]
  split <;> simp

/-- **C03**: `times(a)` panics with `Backwards range` iff `a` is an empty `a..b` or `a..=b`. -/
theorem C03_backwards (a : TimesArg) (e : Expectation V) (q : Seqs) (hu : inUsize a) :
    (e.build (.times a) q).1 = .error .backwardsRange ↔
      (∃ s t, (a = .range s t ∨ a = .rangeInclusive s t) ∧ ∀ k, ¬ permits a k) := by
  cases a with
  | range s t =>
    simp only [Expectation.build, Times.times, TimesRange.from]
    by_cases h : t > s
    · simp [h, permits]; exact ⟨s, Nat.le_refl _, h⟩
    · simp [h, permits]; omega
  | rangeInclusive s t =>
    simp only [Expectation.build, Times.times, TimesRange.from]
    by_cases h : t ≥ s
    · simp [h, permits, addOne]
      have hne : ¬ ∀ k, s ≤ k → t < k := fun hk => by have := hk s (Nat.le_refl _); omega
      simp only [hne, iff_false]
      by_cases ht : t = usizeMax <;> simp [ht, Functor.map, Except.map]
    · simp [h, permits]; omega
  | n n => by_cases h : n = usizeMax <;>
      simp [Expectation.build, Times.times, TimesRange.from, addOne, h, bind, Except.bind, pure, Except.pure]
  | rangeToInclusive n => by_cases h : n = usizeMax <;>
      simp [Expectation.build, Times.times, TimesRange.from, addOne, h, bind, Except.bind, pure, Except.pure]
  | _ => simp [Expectation.build, Times.times, TimesRange.from]

/-- **C03**: apart from that, `times(a)` is accepted, unless its inclusive upper bound is `usize::MAX`. -/
theorem C03_accepted (a : TimesArg) (e : Expectation V) (q : Seqs) (ht : Tame a ∨ a = .rangeTo 0) :
    (e.build (.times a) q).1 = .ok () := by
  rcases ht with ht | rfl
  · obtain ⟨h, _⟩ := from_tame a ht
    simp [Expectation.build, Times.times, h]
  · simp [Expectation.build, Times.times, TimesRange.from]

/-- **C03 is false at the top of usize**: `times(usize::MAX)` panics although it spells one count, and
`times(..)` fails verification after `usize::MAX` calls, although that count is in the range. -/
theorem C03_false_at_max (info : FnInfo V) (e : Expectation V) (q : Seqs) (hp : e.common.mpoison = false) :
    ((e.build (.times (.n usizeMax)) q).1 = .error .addOverflow ∧ permits (.n usizeMax) usizeMax) ∧
    (permits .rangeFull usizeMax ∧
      ∃ p, Expectation.drop false info { (e.build (.times .rangeFull) q).2.1 with
        common := { (e.build (.times .rangeFull) q).2.1.common with
          times := { (e.build (.times .rangeFull) q).2.1.common.times with count := usizeMax } } } = .error p) := by
  constructor
  · simp [Expectation.build, Times.times, TimesRange.from, addOne, permits, bind, Except.bind]
  · refine ⟨trivial, .tooManyAtDrop info.funcname e.common.matcher.display usizeMax (usizeMax - 1), ?_⟩
    simp [Expectation.build, Times.times, TimesRange.from, Expectation.drop, Common.drop, hp,
      Times.isSatisfied, Times.maximum, subOne]
    simp [usizeMax]

/-- **C03**: `times(..0)` is accepted although it spells no count at all; no number of calls
satisfies it, and its failures are arithmetic overflow panics. -/
theorem C03_empty_to (info : FnInfo V) (e : Expectation V) (q : Seqs) (hp : e.common.mpoison = false) (k : Nat) :
    (∀ j, ¬ permits (.rangeTo 0) j) ∧ (e.build (.times (.rangeTo 0)) q).1 = .ok () ∧
    Expectation.drop false info { (e.build (.times (.rangeTo 0)) q).2.1 with
        common := { (e.build (.times (.rangeTo 0)) q).2.1.common with
          times := { (e.build (.times (.rangeTo 0)) q).2.1.common.times with count := k } } } =
      .error .subOverflow := by
  refine ⟨fun j => by simp [permits], ?_, ?_⟩ <;>
  simp [Expectation.build, Times.times, TimesRange.from, Expectation.drop, Common.drop, hp,
    Times.isSatisfied, Times.maximum, subOne]

example : (Expectation.build (.times (.range 2 5))
    (Expectation.new false (⟨.static, "f", "f", none⟩ : FnInfo Nat) 0) (fun _ => SeqState.new)).1 = .ok () := by
  decide

/-! ## C04: unlimited by default -/

/-- **C04**: in every program, an expectation configured without `times`, `once`, `never` (and outside
of sequences) lets every call through and passes verification, for histories of fewer than
`usize::MAX - 1` dispatched calls. -/
theorem C04_unlimited (env : Env V) (sts : List (MethodInfo V)) (ops : List (Op V)) (info : FnInfo V) :
    let s := (Sys.run env ops (Sys.init sts)).2
    ∀ e ∈ s.all, s.world.log.length < usizeMax →
      (∀ b ∈ e.chain, timesOf b = none ∧ isInSequence b = false) →
      (∀ h ∈ s.world.log, h.gid = e.gid → h.passed = true) ∧
      ((∀ op ∈ ops, ∀ tid args upd, op.callInfo? = some (tid, args, upd) →
          ∃ b, verdict tid args e.chain = .ok b) →
        e.drop false info = .ok ()) := by
  intro s e he hl hch
  have ha : countArg e.chain = .rangeFull := by
    have : e.chain.filterMap timesOf = [] :=
      List.filterMap_eq_nil_iff.mpr fun b hb => (hch b hb).1
    simp [countArg, lastOf, this]
  refine ⟨fun h hh hg => ?_, fun hnp => ?_⟩
  · obtain ⟨before, after, hlog⟩ := List.append_of_mem hh
    have hm : IsMax (countArg e.chain) (usizeMax - 1) := by
      rw [ha]
      exact ⟨trivial, by simp [usizeMax], fun k hk _ => by omega⟩
    have := C01_ceiling_program env sts ops e he (usizeMax - 1) (by rw [ha]; trivial) hm
      (fun b hb => (hch b hb).2) (Nat.le_of_lt hl) before h after hlog hg
    rw [this]
    have h1 : before.countP (·.gid == e.gid) ≤ before.length := List.countP_le_length
    have h2 : s.world.log.length = before.length + (after.length + 1) := by rw [hlog]; simp
    omega
  · rw [C02_verdict env sts ops info e he hl hnp, ha]
    trivial

example : let mi : MethodInfo Nat := ⟨false, ⟨.static, "f", "f", none⟩, fun _ => none⟩
    let s := (Sys.run ⟨false, toString, id⟩
      [.new [mi], .expect 0 0 0 [.returnConst 3], .call 0 0 0 0 [1] id, .call 0 0 0 1 [2] id] (Sys.init [])).2
    s.world.log.length = 2 ∧ (∀ e ∈ s.all, ∀ b ∈ e.chain, timesOf b = none ∧ isInSequence b = false) := by
  decide

/-! ## C05: the last builder call of a kind wins -/

/-- **C05**: two completed builder chains (without `in_sequence`) whose last count setting, last
matcher and last return value setting agree configure the same expectation (`chain` is a ghost). -/
theorem C05_last_wins (nightly : Bool) (info : FnInfo V) (g : Nat) (q : Seqs) (bs bs' : List (Build V))
    (h : ((Expectation.new nightly info g).builds bs q).1 = .ok ())
    (h' : ((Expectation.new nightly info g).builds bs' q).1 = .ok ())
    (hs : ∀ b ∈ bs ++ bs', isInSequence b = false)
    (hcount : lastOf countOf ⟨0, usizeMax⟩ bs = lastOf countOf ⟨0, usizeMax⟩ bs')
    (hmatch : lastOf matcherOf .always bs = lastOf matcherOf .always bs')
    (hret : lastOf (retOf info.kind) (retDefault nightly info) bs =
      lastOf (retOf info.kind) (retDefault nightly info) bs') :
    { ((Expectation.new nightly info g).builds bs q).2.1 with chain := [] } =
      { ((Expectation.new nightly info g).builds bs' q).2.1 with chain := [] } := by
  have noseq : ∀ c : List (Build V), (∀ b ∈ c, isInSequence b = false) →
      lastOf sequenceOf none c = (none : Option Nat) := by
    intro c hc
    have : c.filterMap sequenceOf = [] := by
      rw [List.filterMap_eq_nil_iff]
      intro b hb
      have := hc b hb
      cases b <;> simp [sequenceOf, isInSequence] at this ⊢
    simp [lastOf, this]
  have c1 := (Cfg.new nightly info g).builds q bs
  have c2 := (Cfg.new nightly info g).builds q bs'
  have g1 := (Expectation.builds_frame bs (Expectation.new nightly info g) q).1
  have g2 := (Expectation.builds_frame bs' (Expectation.new nightly info g) q).1
  rcases hb : (Expectation.new nightly info g).builds bs q with ⟨r, e, q1⟩
  rcases hb' : (Expectation.new nightly info g).builds bs' q with ⟨r', e', q1'⟩
  rw [hb] at h c1 g1
  rw [hb'] at h' c2 g2
  simp only at h h' c1 c2 g1 g2
  subst h h'
  have e1 : e.chain = bs := by simpa [Expectation.new] using Expectation.builds_chain hb
  have e2 : e'.chain = bs' := by simpa [Expectation.new] using Expectation.builds_chain hb'
  obtain ⟨p1, k1, _, _, r1, m1, t1, s1, i1⟩ := c1
  obtain ⟨p2, k2, _, _, r2, m2, t2, s2, i2⟩ := c2
  rw [e1] at r1 m1 t1 s1
  rw [e2] at r2 m2 t2 s2
  rw [noseq bs (fun b hb => hs b (List.mem_append_left _ hb))] at s1
  rw [noseq bs' (fun b hb => hs b (List.mem_append_right _ hb))] at s2
  obtain ⟨eg, ei, ec, ⟨em, ep, es, ⟨en, er⟩⟩, et⟩ := e
  obtain ⟨fg, fi, fc, ⟨fm, fp, fs, ⟨fn, fr⟩⟩, ft⟩ := e'
  simp only [Option.map_eq_none_iff] at *
  simp only [p1, p2, k1, k2, r1, r2, m1, m2, t1, t2, s1, s2, g1, g2, i1, i2, hcount, hmatch, hret]

/-- Which of the settings (count or sequence, matcher, return value) a builder call makes. -/
inductive Setting | count | matcher | ret
  deriving DecidableEq

def settingOf : Build V → Setting
  | .times _ | .once | .never | .inSequence _ => .count
  | .with _ | .withf _ | .withfSt _ _ => .matcher
  | _ => .ret

/-- **C05, commutation**: two adjacent successful builder calls that make different kinds of settings
can be exchanged, in any context (`in_sequence` counts as a count setting here). -/
theorem C05_commute (b1 b2 : Build V) (hne : settingOf b1 ≠ settingOf b2) (e e1 e2 : Expectation V)
    (q q1 q2 : Seqs) (hp : e.common.mpoison = false) (hr : e.ret.clean = true)
    (h1 : e.build b1 q = (.ok (), e1, q1)) (h2 : e1.build b2 q1 = (.ok (), e2, q2)) :
    ∃ e1' q1', e.build b2 q = (.ok (), e1', q1') ∧ e1'.build b1 q1' = (.ok (), e2, q2) := by
  have ndef : ∀ (b : Build V), (settingOf b ≠ .count → countOf b = none ∧ (∀ q, seqOf q b = none) ∧
      (∀ q, seqsOf q b = q) ∧ ∀ t, okCond t b = true) ∧
      (settingOf b ≠ .matcher → matcherOf b = none) ∧
      (settingOf b ≠ .ret → ∀ k, retOf k b = none) := by
    intro b
    cases b <;> simp [settingOf, countOf, seqOf, seqsOf, okCond, matcherOf, retOf]
  have k1 := Expectation.build_clean h1 hp hr
  have o1 := Expectation.build_ok h1 hp hr
  have p1 : e1.common.mpoison = false := by rw [o1]; exact hp
  have o2 := Expectation.build_ok h2 p1 k1.1
  obtain ⟨c1, rfl⟩ := Expectation.build_okCond h1
  obtain ⟨c2, rfl⟩ := Expectation.build_okCond h2
  have hone : settingOf b1 ≠ .count ∨ settingOf b2 ≠ .count := by
    cases h : settingOf b1 <;> cases h' : settingOf b2 <;> simp_all
  have hmat : settingOf b1 ≠ .matcher ∨ settingOf b2 ≠ .matcher := by
    cases h : settingOf b1 <;> cases h' : settingOf b2 <;> simp_all
  have hret : settingOf b1 ≠ .ret ∨ settingOf b2 ≠ .ret := by
    cases h : settingOf b1 <;> cases h' : settingOf b2 <;> simp_all
  have c2' : okCond e.common.times b2 = true := by
    rcases hone with h | h
    · rw [o1] at c2
      simpa [((ndef b1).1 h).1] using c2
    · exact ((ndef b2).1 h).2.2.2 _
  obtain ⟨e1', h1'⟩ := Expectation.build_of_okCond q c2' hp hr
  have k1' := Expectation.build_clean h1' hp hr
  have o1' := Expectation.build_ok h1' hp hr
  have p1' : e1'.common.mpoison = false := by rw [o1']; exact hp
  have c1' : okCond e1'.common.times b1 = true := by
    rcases hone with h | h
    · exact ((ndef b1).1 h).2.2.2 _
    · rw [o1']
      simpa [((ndef b2).1 h).1] using c1
  obtain ⟨e2', h2'⟩ := Expectation.build_of_okCond (seqsOf q b2) c1' p1' k1'.1
  have o2' := Expectation.build_ok h2' p1' k1'.1
  refine ⟨e1', _, h1', ?_⟩
  rw [h2']
  have hq : seqsOf (seqsOf q b2) b1 = seqsOf (seqsOf q b1) b2 := by
    rcases hone with h | h
    · simp [((ndef b1).1 h).2.2.1]
    · simp [((ndef b2).1 h).2.2.1]
  have he : e2' = e2 := by
    rw [o2, o2', k1.2, k1'.2, o1, o1']
    rcases hone with h | h <;> rcases hmat with h' | h' <;> rcases hret with h'' | h'' <;>
      simp [(ndef _).2.1 h', ((ndef _).1 h).2.1, ((ndef _).1 h).2.2.1, ((ndef _).1 h).1, (ndef _).2.2 h'']
  rw [he, hq]

example : let info : FnInfo Nat := ⟨.static, "f", "f", none⟩
    let bs : List (Build Nat) := [.times (.n 3), .returnConst 1, .never, .returnConst 2, .once]
    let bs' : List (Build Nat) := [.once, .returnConst 2]
    ((Expectation.new false info 0).builds bs (fun _ => SeqState.new)).1 = .ok () ∧
    ((Expectation.new false info 0).builds bs' (fun _ => SeqState.new)).1 = .ok () ∧
    lastOf countOf ⟨0, usizeMax⟩ bs = lastOf countOf ⟨0, usizeMax⟩ bs' := by decide

end Mockall.Props
