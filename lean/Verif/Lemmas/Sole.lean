import Verif.Lemmas.SysInv
import Verif.Lemmas.Scan

/-! # Helper lemmas: a method with a single expectation -/

set_option linter.unusedSimpArgs false

namespace Mockall

open Spec

variable {V : Type}

/-- Builder calls that only set a return value. -/
def Build.isReturn : Build V → Bool
  | .returning _ | .returningSt _ _ | .returnConst _ | .returnConstSt _ _ | .returnOnce _
  | .returnOnceSt _ _ | .returnVar _ => true
  | _ => false

theorem build_return_ok {b : Build V} (hb : b.isReturn = true) (e : Expectation V) (q : Seqs)
    (hr : e.ret.clean = true) : ∃ e', e.build b q = (.ok (), e', q) := by
  obtain ⟨g, i, c, cm, r⟩ := e
  cases b <;> simp [Build.isReturn] at hb <;>
    cases r <;> simp_all [Expectation.build, Expectation.setStatic, Ret.clean] <;>
    (try (subst hr; simp))

/-- A chain consisting of return value setters always completes and touches nothing else. -/
theorem builds_return {bs : List (Build V)} (hb : ∀ b ∈ bs, b.isReturn = true) (e : Expectation V)
    (q : Seqs) (hp : e.common.mpoison = false) (hr : e.ret.clean = true) :
    ∃ e', e.builds bs q = (.ok (), e', q) ∧ e'.common = e.common ∧ e'.gid = e.gid ∧
      e'.ret.clean = true := by
  induction bs generalizing e with
  | nil => exact ⟨e, rfl, rfl, rfl, hr⟩
  | cons b bs ih =>
    have hbr := hb b (List.mem_cons_self ..)
    obtain ⟨e1, he1⟩ := build_return_ok hbr e q hr
    have hok := Expectation.build_ok he1 hp hr
    have hcl := (Expectation.build_clean he1 hp hr).1
    have hcom : e1.common = e.common := by
      rw [hok]
      cases b <;> simp [Build.isReturn] at hbr <;> simp [countOf, matcherOf, seqOf]
    obtain ⟨e2, he2, hc2, hg2, hr2⟩ := ih (fun x hx => hb x (List.mem_cons_of_mem _ hx))
      { e1 with chain := e.chain ++ [b] } (by simp [hcom, hp]) hcl
    refine ⟨e2, ?_, hc2.trans hcom, ?_, hr2⟩
    · unfold Expectation.builds
      rw [he1]
      exact he2
    · rw [hg2]
      have := (Expectation.build_frame b e q).1
      rw [he1] at this
      exact this

theorem method_sole (cx : Cx V) (info : FnInfo V) (args : List V) (e : Expectation V) (w : World V)
    (hm : e.matches cx.tid args = (.ok true, e)) (hp : 0 < e.common.times.range.end_) :
    Expectations.method cx info args [e] w =
      ((e.call cx info args w).1, [(e.call cx info args w).2.1], (e.call cx info args w).2.2) := by
  simp only [Expectations.method, Expectations.call, callScan, hm, List.length_singleton]
  rw [Expectation.isDone_ok hp]
  simp only [BEq.rfl, Bool.or_true, ↓reduceIte]
  rcases e.call cx info args w with ⟨r, e', w'⟩
  cases r <;> rfl

/-- The verdict of `Common.call` outside of sequences. -/
theorem Common.call_noseq (func desc : String) (c : Common V) (q : Seqs) (hs : c.seqHandle = none)
    (hp : c.mpoison = false) (hc : c.times.count < usizeMax) (hpos : 0 < c.times.range.end_) :
    (c.call func desc q).1 =
      if c.times.count + 1 < c.times.range.end_ then .ok ()
      else .error (.call func c.matcher.display
        (if c.times.range.end_ = 1 then .shouldNot
         else .tooMany (c.times.count + 1) (c.times.range.end_ - 1))) := by
  have h1 : c.times.count ≠ usizeMax := by omega
  have h0 : c.times.range.end_ ≠ 0 := by omega
  by_cases hlt : c.times.count + 1 < c.times.range.end_
  · have : ¬ (c.times.range.end_ ≤ c.times.count + 1) := by omega
    simp [Common.call, Times.call, addOne, h1, this, hlt, Common.verifySequence, hs,
      Common.satisfySequence]
  · have : c.times.range.end_ ≤ c.times.count + 1 := by omega
    by_cases he : c.times.range.end_ = 1 <;>
      simp [Common.call, Times.call, addOne, h1, this, hlt, he, hp, subOne, h0]

end Mockall
