import Verif.Lemmas.SysInv
import Verif.Spec.Sequence

/-! # Helper lemmas: sequences follow their specification -/

set_option linter.unusedSimpArgs false

namespace Mockall

open Spec

variable {V : Type}

theorem joinCount_snoc (sid : Nat) (made : List (List (Build V))) (c : List (Build V)) :
    joinCount sid (made ++ [c]) = joinCount sid made + c.countP (joins sid) := by
  simp [joinCount]

theorem slot_old {made : List (List (Build V))} {g : Nat} (h : g < made.length) (sid : Nat) (c : List (Build V)) :
    slot (made ++ [c]) sid g = slot made sid g := by
  unfold slot
  rw [List.getElem?_append_left h, List.take_append_of_le_length (by omega)]

theorem countWin_old {made : List (List (Build V))} {g : Nat} (h : g < made.length) (c : List (Build V)) :
    countWin (made ++ [c]) g = countWin made g := by
  unfold countWin
  rw [List.getElem?_append_left h]

theorem slot_new (made : List (List (Build V))) (sid : Nat) (c : List (Build V)) :
    slot (made ++ [c]) sid made.length =
      if lastOf sequenceOf none c = some sid then some (joinCount sid made + c.countP (joins sid) - 1) else none := by
  unfold slot
  rw [← joinCount_snoc]
  have : (made ++ [c]).take (made.length + 1) = made ++ [c] := by
    rw [List.take_of_length_le]; simp
  rw [this]
  simp

/-- What a chain of builder calls does to the sequences. -/
structure Joined (q0 : Seqs) (e : Expectation V) (q : Seqs) : Prop where
  next : ∀ sid, (q sid).next = (q0 sid).next + e.chain.countP (joins sid)
  level : ∀ sid, (q sid).level = (q0 sid).level
  handle : ∀ h, e.common.seqHandle = some h → h.seq + 1 = (q h.sid).next

theorem Joined.build {q0 q q' : Seqs} {e e' : Expectation V} {b : Build V} (h : Joined q0 e q)
    (hb : e.build b q = (.ok (), e', q')) : Joined q0 { e' with chain := e.chain ++ [b] } q' := by
  obtain ⟨h1, h2, h3⟩ := h
  cases b with
  | inSequence sid =>
    simp only [Expectation.build, Common.inSequence] at hb
    split at hb
    · simp only [Seqs.nextHandle, Prod.mk.injEq, true_and] at hb
      obtain ⟨rfl, rfl⟩ := hb
      refine ⟨fun s => ?_, fun s => ?_, ?_⟩
      · simp only [Seqs.set, List.countP_append, List.countP_cons, List.countP_nil, joins]
        by_cases hs : s = sid
        · subst hs; simp [h1]; omega
        · have : ¬ sid = s := fun h => hs h.symm
          simp [hs, this, h1]
      · simp only [Seqs.set]
        split
        · rename_i hs; subst hs; exact h2 s
        · exact h2 s
      · intro h hh
        simp at hh
        subst hh
        simp [Seqs.set]
    · simp at hb
  | _ =>
    simp only [Expectation.build, Expectation.setMatcher, Expectation.setStatic, Times.times, Times.never] at hb
    (repeat' split at hb) <;> simp at hb <;> (try obtain ⟨rfl, rfl⟩ := hb) <;>
      (try obtain ⟨_, rfl, rfl⟩ := hb) <;>
      exact ⟨fun s => by simp [List.countP_append, joins, h1], h2, h3⟩

theorem Joined.builds {q0 q : Seqs} {e : Expectation V} (bs : List (Build V)) (h : Joined q0 e q) :
    Joined q0 (e.builds bs q).2.1 (e.builds bs q).2.2 := by
  induction bs generalizing e q with
  | nil => exact h
  | cons b bs ih =>
    unfold Expectation.builds
    rcases hb : e.build b q with ⟨r, e1, q1⟩
    cases r with
    | error p =>
      obtain ⟨rfl, rfl⟩ := Expectation.build_err hb
      exact h
    | ok u => exact ih (h.build hb)

theorem Joined.new (nightly : Bool) (info : FnInfo V) (g : Nat) (q : Seqs) :
    Joined q (Expectation.new nightly info g) q :=
  ⟨fun _ => by simp [Expectation.new], fun _ => rfl, by simp [Expectation.new, Common.dflt]⟩

/-- `Common::call` on a member of a sequence. -/
theorem Common.call_member (func desc : String) (c : Common V) (q : Seqs) (h : SeqHandle)
    (hs : c.seqHandle = some h) (hc : c.times.count < usizeMax) :
    ((c.call func desc q).1 = .ok () ↔ h.seq = (q h.sid).level ∧ c.times.count + 1 < c.times.range.end_) ∧
    (c.call func desc q).2.2 =
      if (h.seq = (q h.sid).level ∧ c.times.count + 1 < c.times.range.end_) ∧ c.times.range.start ≤ c.times.count + 1
      then q.set h.sid { q h.sid with level := (q h.sid).level + 1 } else q := by
  have h1 : c.times.count ≠ usizeMax := by omega
  by_cases hend : c.times.range.end_ ≤ c.times.count + 1
  · have hn : ¬ (c.times.count + 1 < c.times.range.end_) := by omega
    by_cases he : c.times.range.end_ = 1
    · simp [Common.call, Times.call, addOne, h1, hend, hn, he]
    · cases hsub : subOne c.times.range.end_ <;>
        simp [Common.call, Times.call, addOne, h1, hend, hn, he, hsub]
  · have hn : c.times.count + 1 < c.times.range.end_ := by omega
    by_cases hl : h.seq = (q h.sid).level
    · have hsat : (Times.isSatisfied ⟨c.times.count + 1, c.times.range⟩ ≠ .tooFew) ↔
          c.times.range.start ≤ c.times.count + 1 := by
        by_cases hst : c.times.range.start ≤ c.times.count + 1 <;> simp [Times.isSatisfied, hst, hn]
      simp [Common.call, Times.call, addOne, h1, hend, hn, Common.verifySequence, hs, Seqs.verify, hl,
        Common.satisfySequence, Seqs.satisfy, atomicInc]
      by_cases hst : c.times.range.start ≤ c.times.count + 1
      · have := hsat.mpr hst
        simp [this, hst]
      · have : Times.isSatisfied ⟨c.times.count + 1, c.times.range⟩ = .tooFew := by
          exact Classical.byContradiction fun h => hst (hsat.mp h)
        simp [this, hst]
    · simp [Common.call, Times.call, addOne, h1, hend, hn, Common.verifySequence, hs, Seqs.verify, hl,
        Common.satisfySequence, Seqs.satisfy, atomicInc]

theorem Common.call_outsider (func desc : String) (c : Common V) (q : Seqs) (hs : c.seqHandle = none) :
    (c.call func desc q).2.2 = q := by
  rcases Common.call_seqs func desc c q with h | ⟨h, hh, _⟩
  · exact h
  · rw [hs] at hh; simp at hh

/-- The calls dispatched to members of a sequence. -/
def memberHits (made : List (List (Build V))) (sid : Nat) (log : List (Hit V)) : List (Hit V) :=
  log.filter fun h => (slot made sid h.gid).isSome

/-- The state of the specification after the calls in the log. -/
def seqSt (made : List (List (Build V))) (sid : Nat) (log : List (Hit V)) : SeqSt :=
  SeqSt.run (slot made sid) (countWin made) ((memberHits made sid log).map (·.gid))

theorem SeqSt.run_congr {pos pos' : Nat → Option Nat} {win win' : Nat → TimesRange} (gs : List Nat)
    (h : ∀ g ∈ gs, pos g = pos' g ∧ win g = win' g) : SeqSt.run pos win gs = SeqSt.run pos' win' gs := by
  unfold SeqSt.run
  generalize (⟨0, [], []⟩ : SeqSt) = s
  induction gs generalizing s with
  | nil => rfl
  | cons g gs ih =>
    simp only [List.foldl_cons]
    obtain ⟨h1, h2⟩ := h g (List.mem_cons_self ..)
    have : SeqSt.next pos win s g = SeqSt.next pos' win' s g := by
      unfold SeqSt.next; rw [h1, h2]
    rw [this]
    exact ih (fun x hx => h x (List.mem_cons_of_mem _ hx)) _

theorem memberHits_old {made : List (List (Build V))} {log : List (Hit V)} (h : ∀ x ∈ log, x.gid < made.length)
    (sid : Nat) (c : List (Build V)) : memberHits (made ++ [c]) sid log = memberHits made sid log := by
  unfold memberHits
  apply List.filter_congr
  intro x hx
  rw [slot_old (h x hx)]

theorem seqSt_old {made : List (List (Build V))} {log : List (Hit V)} (h : ∀ x ∈ log, x.gid < made.length)
    (sid : Nat) (c : List (Build V)) : seqSt (made ++ [c]) sid log = seqSt made sid log := by
  unfold seqSt
  rw [memberHits_old h]
  apply SeqSt.run_congr
  intro g hg
  obtain ⟨x, hx, rfl⟩ := List.mem_map.mp hg
  have hx := h x (List.mem_filter.mp hx).1
  exact ⟨slot_old hx _ _, countWin_old hx _⟩

/-- The invariant: every sequence is where its specification says. -/
structure SeqInv (l : List (Expectation V)) (w : World V) : Prop where
  len : w.made.length = w.fresh
  chain : ∀ e ∈ l, w.made[e.gid]? = some e.chain
  handle : ∀ e ∈ l, ∀ h, e.common.seqHandle = some h → slot w.made h.sid e.gid = some h.seq
  next : ∀ sid, (w.seqs sid).next = joinCount sid w.made
  run : w.log.length ≤ usizeMax → ∀ sid, seqSt w.made sid w.log =
    ⟨(w.seqs sid).level, (memberHits w.made sid w.log).map (·.gid), (memberHits w.made sid w.log).map (·.passed)⟩

/-- A member's position is only in its own sequence. -/
theorem SeqInv.slot_other {done : List (Op V)} {n : Bool} {l : List (Expectation V)} {w : World V} (h : SeqInv l w)
    (hi : SysInv n done l w) {e : Expectation V} (he : e ∈ l) (sid : Nat)
    (hs : e.common.seqHandle.map (·.sid) ≠ some sid) : slot w.made sid e.gid = none := by
  unfold slot
  rw [h.chain e he]
  simp only
  rw [← (hi.live e he).seq]
  simp [hs]

theorem memberHits_snoc (made : List (List (Build V))) (sid : Nat) (log : List (Hit V)) (x : Hit V) :
    memberHits made sid (log ++ [x]) =
      memberHits made sid log ++ if (slot made sid x.gid).isSome then [x] else [] := by
  simp only [memberHits, List.filter_append, List.filter_cons, List.filter_nil]

theorem memberHits_count {made : List (List (Build V))} {sid g : Nat} (hm : (slot made sid g).isSome)
    (log : List (Hit V)) : ((memberHits made sid log).map (·.gid)).count g = hits g log := by
  induction log with
  | nil => rfl
  | cons x log ih =>
    simp only [memberHits, List.filter_cons, hits, List.countP_cons] at ih ⊢
    by_cases hx : x.gid = g
    · simp [hx, hm, ih]
    · split <;> simp [hx, ih]

theorem SeqInv.step {env : Env V} {done : List (Op V)} {l l' : List (Expectation V)} {w w' : World V} {op : Op V}
    {ob : Obs V} (h : SeqInv l w) (hi : SysInv env.nightly done l w) (hE : Evo env l w op ob l' w') :
    SeqInv l' w' := by
  cases hE with
  | quiet hs _ =>
    exact ⟨h.len, fun e he => h.chain e (hs.subset he), fun e he => h.handle e (hs.subset he), h.next, h.run⟩
  | @expect bs info ob l' r hb hr hr' hins =>
    obtain ⟨l1, l2, rfl, rfl⟩ := hins
    have hj : Joined w.seqs (newExp env.nightly info bs w)
        (Expectation.builds bs (Expectation.new env.nightly info w.fresh) w.seqs).2.2 :=
      (Joined.new env.nightly info w.fresh w.seqs).builds bs
    have hcfg : Cfg env.nightly info (newExp env.nightly info bs w) :=
      (Cfg.new env.nightly info w.fresh).builds w.seqs bs
    have hg : (newExp env.nightly info bs w).gid = w.fresh :=
      (Expectation.builds_frame bs (Expectation.new env.nightly info w.fresh) w.seqs).1
    generalize newExp env.nightly info bs w = ne at *
    generalize (Expectation.builds bs (Expectation.new env.nightly info w.fresh) w.seqs).2.2 = q' at *
    have hmem : ∀ e, e ∈ l1 ++ ne :: l2 → e = ne ∨ e ∈ l1 ++ l2 := by
      intro e he; simp at he ⊢; grind
    refine ⟨by simp [h.len], ?_, ?_, ?_, ?_⟩
    · intro e he
      rcases hmem e he with rfl | he
      · rw [hg, ← h.len]; simp
      · have := (hi.live e he).gid
        rw [List.getElem?_append_left (by rw [h.len]; exact this)]
        exact h.chain e he
    · intro e he hd hhd
      rcases hmem e he with rfl | he
      · rw [hg, ← h.len]
        simp only
        rw [slot_new]
        have hsq := hcfg.seq
        rw [hhd] at hsq
        rw [← hsq]
        have h1 := hj.handle hd hhd
        rw [hj.next, h.next] at h1
        simp
        omega
      · have := (hi.live e he).gid
        rw [slot_old (by rw [h.len]; exact this)]
        exact h.handle e he hd hhd
    · intro sid
      rw [hj.next, h.next, joinCount_snoc]
    · intro hlen sid
      have hlog : ∀ x ∈ w.log, x.gid < w.made.length := by rw [h.len]; exact hi.log
      simp only
      rw [seqSt_old hlog, memberHits_old hlog, hj.level]
      exact h.run hlen sid
  | @pred tid args upd e e' p ob l' hc hch hm ho =>
    obtain ⟨l1, l2, rfl, rfl⟩ := hch
    have he' := Expectation.matches_err hm
    have hmem : ∀ x, x ∈ l1 ++ e' :: l2 → x = e' ∨ x ∈ l1 ++ e :: l2 := by
      intro x hx; simp at hx ⊢; grind
    refine ⟨h.len, ?_, ?_, h.next, h.run⟩
    · intro x hx
      rcases hmem x hx with rfl | hx
      · rw [he']; exact h.chain e (by simp)
      · exact h.chain x hx
    · intro x hx
      rcases hmem x hx with rfl | hx
      · rw [he']; exact h.handle e (by simp)
      · exact h.handle x hx
  | @hit tid args upd e ob l' info hc hm hch ho =>
    obtain ⟨l1, l2, rfl, rfl⟩ := hch
    have hF := Expectation.call_frame ⟨env.nightly, tid, env.dbg, upd⟩ info args e w
    obtain ⟨b, hb, hW⟩ := Expectation.call_world ⟨env.nightly, tid, env.dbg, upd⟩ info args e w
    have hmemb := Common.call_member info.funcname (callDesc ⟨env.nightly, tid, env.dbg, upd⟩ info args) e.common w.seqs
    have hout := Common.call_outsider info.funcname (callDesc ⟨env.nightly, tid, env.dbg, upd⟩ info args) e.common w.seqs
    have hseqs := Common.call_seqs info.funcname (callDesc ⟨env.nightly, tid, env.dbg, upd⟩ info args) e.common w.seqs
    generalize e.call ⟨env.nightly, tid, env.dbg, upd⟩ info args w = o at *
    generalize e.common.call info.funcname (callDesc ⟨env.nightly, tid, env.dbg, upd⟩ info args) w.seqs = cc at *
    simp only at hF hW
    have hL := hi.live e (by simp)
    have hlog : o.2.2.log = w.log ++ [⟨e.gid, tid, args, b, upd⟩] := by rw [hW]
    have hmd : o.2.2.made = w.made := by rw [hW]
    have hfr : o.2.2.fresh = w.fresh := by rw [hW]
    have hq : o.2.2.seqs = cc.2.2 := by rw [hW]
    have hmem : ∀ x, x ∈ l1 ++ o.2.1 :: l2 → x = o.2.1 ∨ x ∈ l1 ++ e :: l2 := by
      intro x hx; simp at hx ⊢; grind
    refine ⟨by rw [hmd, hfr]; exact h.len, ?_, ?_, ?_, ?_⟩
    · intro x hx
      rw [hmd]
      rcases hmem x hx with rfl | hx
      · rw [hF]; exact h.chain e (by simp)
      · exact h.chain x hx
    · intro x hx
      rw [hmd]
      rcases hmem x hx with rfl | hx
      · rw [hF]; exact h.handle e (by simp)
      · exact h.handle x hx
    · intro sid
      rw [hq, hmd, ← h.next]
      rcases hseqs with h1 | ⟨hd, _, h1⟩
      · rw [h1]
      · rw [h1]; simp only [Seqs.set]; split
        · rename_i hs; subst hs; rfl
        · rfl
    · intro hlen sid
      rw [hlog] at hlen
      simp at hlen
      have hrun := h.run (by omega) sid
      have hcnt := hL.count (by omega)
      have hle := hits_le e.gid w.log
      rw [hlog, hmd, hq]
      by_cases hs : e.common.seqHandle.map (·.sid) = some sid
      · cases hh : e.common.seqHandle with
        | none => rw [hh] at hs; simp at hs
        | some hd =>
          rw [hh] at hs
          simp at hs
          subst hs
          have hsl := h.handle e (by simp) hd hh
          obtain ⟨m1, m2⟩ := hmemb hd hh (by omega)
          have hsome : (slot w.made hd.sid e.gid).isSome := by rw [hsl]; rfl
          have hwin : countWin w.made e.gid = e.common.times.range := by
            unfold countWin
            rw [h.chain e (by simp), hL.range, lastOf_countOf]
            rfl
          unfold seqSt at hrun ⊢
          rw [memberHits_snoc]
          simp only [hsome, ↓reduceIte, List.map_append, List.map_cons, List.map_nil]
          unfold SeqSt.run at hrun ⊢
          rw [List.foldl_append, hrun]
          simp only [List.foldl_cons, List.foldl_nil, SeqSt.next, memberHits_count hsome, hsl, hwin, ← hcnt]
          have hbb : (some hd.seq == some (w.seqs hd.sid).level && decide (e.common.times.count + 1 < e.common.times.range.end_)) = b := by
            rw [Bool.eq_iff_iff, hb, m1]; simp
          rw [hbb, m2]
          congr 1
          have m1' := hb.trans m1
          simp only [← m1']
          by_cases hst : e.common.times.range.start ≤ e.common.times.count + 1 <;> cases b <;> simp [hst, Seqs.set]
      · have hnone := h.slot_other hi (e := e) (by simp) sid hs
        have hlev : (cc.2.2 sid).level = (w.seqs sid).level := by
          rcases hseqs with h1 | ⟨hd, hh, h1⟩
          · rw [h1]
          · have : sid ≠ hd.sid := by
              rintro rfl; apply hs; rw [hh]; rfl
            rw [h1]; simp [Seqs.set, this]
        rw [hlev]
        unfold seqSt at hrun ⊢
        rw [memberHits_snoc]
        simp only [hnone, Option.isSome_none, Bool.false_eq_true, ↓reduceIte, List.append_nil]
        exact hrun

theorem seqInv_run (env : Env V) (sts : List (MethodInfo V)) (ops : List (Op V)) :
    SeqInv (Sys.run env ops (Sys.init sts)).2.all (Sys.run env ops (Sys.init sts)).2.world := by
  have := run_induct (env := env) (fun done l w => SysInv env.nightly done l w ∧ SeqInv l w)
    (fun _ _ _ _ _ _ _ h hE => ⟨h.1.step hE, h.2.step h.1 hE⟩) ops (Sys.init sts) []
    ⟨⟨by simp [Sys.init_all], by simp [Sys.init_all], by simp [Sys.init]⟩,
      rfl, by simp [Sys.init_all], by simp [Sys.init_all], by simp [Sys.init, SeqState.new, joinCount],
      fun _ _ => rfl⟩
  exact this.2

end Mockall
