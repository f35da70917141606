import Verif.Lemmas.Builders
import Verif.Lemmas.Scan

/-! # Helper lemmas: expectations that behave alike -/

set_option linter.unusedSimpArgs false

namespace Mockall

open Spec

variable {V : Type}

/-- Rewrite the matcher description inside a panic message. -/
def Panic.mapDescr (er : String → String) : Panic → Panic
  | .call f m e => .call f (er m) e
  | .ret f m e => .ret f (er m) e
  | .tooFewAtDrop f m c n => .tooFewAtDrop f (er m) c n
  | .tooManyAtDrop f m c n => .tooManyAtDrop f (er m) c n
  | p => p

def mapErr {α : Type} (er : String → String) : Except Panic α → Except Panic α
  | .ok a => .ok a
  | .error p => .error (p.mapDescr er)

theorem Panic.mapDescr_id (p : Panic) : p.mapDescr id = p := by cases p <;> rfl

theorem mapErr_id {α : Type} (r : Except Panic α) : mapErr id r = r := by
  cases r <;> simp [mapErr, Panic.mapDescr_id]

/-- Same counts, sequence, poison flags and return function; matchers that accept the same calls, and
whose descriptions `er` identifies. -/
structure Expectation.Sim (er : String → String) (a b : Expectation V) : Prop where
  poison : a.common.mpoison = b.common.mpoison
  seq : a.common.seqHandle = b.common.seqHandle
  times : a.common.times = b.common.times
  ret : a.ret = b.ret
  acc : ∀ tid args, a.common.matcher.matches tid args = b.common.matcher.matches tid args
  descr : er a.common.matcher.display = er b.common.matcher.display

/-- Same sequences and closure runs. -/
structure World.Sim (w w' : World V) : Prop where
  seqs : w.seqs = w'.seqs
  runs : w.runs = w'.runs

theorem World.Sim.refl (w : World V) : w.Sim w := ⟨rfl, rfl⟩

theorem Expectation.Sim.refl (er : String → String) (a : Expectation V) : a.Sim er a :=
  ⟨rfl, rfl, rfl, rfl, fun _ _ => rfl, rfl⟩

theorem Expectation.Sim.matches {er : String → String} {a b : Expectation V} (h : a.Sim er b) (tid : Nat)
    (args : List V) :
    (a.matches tid args).1 = (b.matches tid args).1 ∧
      (a.matches tid args).2.Sim er (b.matches tid args).2 := by
  obtain ⟨ga, ia, ca, ⟨ma, pa, sa, ta⟩, ra⟩ := a
  obtain ⟨gb, ib, cb, ⟨mb, pb, sb, tb⟩, rb⟩ := b
  obtain ⟨h1, h2, h3, h4, h5, h6⟩ := h
  simp only at h1 h2 h3 h4 h5 h6
  subst h1 h2 h3 h4
  simp only [Expectation.matches, Common.matches, h5]
  split
  · exact ⟨rfl, rfl, rfl, rfl, rfl, h5, h6⟩
  · split <;> exact ⟨rfl, rfl, rfl, rfl, rfl, h5, h6⟩


theorem Common.call_sim {er : String → String} (func desc : String) (ma mb : Matcher V) (p : Bool)
    (sh : Option SeqHandle) (t : Times) (q : Seqs) (h : er ma.display = er mb.display) :
    mapErr er (Common.call func desc ⟨ma, p, sh, t⟩ q).1 =
      mapErr er (Common.call func desc ⟨mb, p, sh, t⟩ q).1 ∧
    (Common.call func desc ⟨ma, p, sh, t⟩ q).2.2 = (Common.call func desc ⟨mb, p, sh, t⟩ q).2.2 := by
  unfold Common.call
  simp only
  rcases t.call with ⟨r, t'⟩
  rcases r with e | (m | u)
  · simp
  · simp only
    cases p <;> simp [mapErr, Panic.mapDescr, h]
  · simp only [Common.verifySequence, Common.satisfySequence]
    repeat' split
    all_goals simp_all

theorem Expectation.Sim.ret_call {er : String → String} {a b : Expectation V} (h : a.Sim er b) (cx : Cx V)
    (info : FnInfo V) (args : List V) {w w' : World V} (hw : w.Sim w') :
    mapErr er (a.ret_call cx info args w).1 = mapErr er (b.ret_call cx info args w').1 ∧
    (a.ret_call cx info args w).2.1.Sim er (b.ret_call cx info args w').2.1 ∧
    (a.ret_call cx info args w).2.2.Sim (b.ret_call cx info args w').2.2 := by
  obtain ⟨ga, ia, ca, ⟨ma, pa, sa, ta⟩, ra⟩ := a
  obtain ⟨gb, ib, cb, ⟨mb, pb, sb, tb⟩, rb⟩ := b
  obtain ⟨h1, h2, h3, h4, h5, h6⟩ := h
  obtain ⟨q, f, l, rs⟩ := w
  obtain ⟨q', f', l', rs'⟩ := w'
  obtain ⟨hw1, hw2⟩ := hw
  simp only at h1 h2 h3 h4 h5 h6 hw1 hw2
  subst h1 h2 h3 h4 hw1 hw2
  have key : ∀ m, Panic.mapDescr er (if pa = true then .poisoned else .ret info.funcname ma.display m) =
      Panic.mapDescr er (if pa = true then .poisoned else .ret info.funcname mb.display m) := by
    intro m; cases pa <;> simp [Panic.mapDescr, h6]
  unfold Expectation.ret_call
  simp only
  rcases ra with r | r | ⟨r, p⟩
  · simp only
    cases r.call cx.nightly with
    | ok v => exact ⟨rfl, ⟨rfl, rfl, rfl, rfl, h5, h6⟩, rfl, rfl⟩
    | error m =>
      refine ⟨?_, ⟨rfl, rfl, rfl, rfl, h5, h6⟩, rfl, rfl⟩
      simp only [mapErr, key]
  · simp only
    cases pa with
    | true => exact ⟨rfl, ⟨rfl, rfl, rfl, rfl, h5, h6⟩, rfl, rfl⟩
    | false =>
      simp only [Bool.false_eq_true, ↓reduceIte] at key ⊢
      generalize r.callMut cx.nightly cx.tid args = o
      rcases o with ⟨e | (e | v), nx, rn⟩
      · exact ⟨rfl, ⟨rfl, rfl, rfl, rfl, h5, h6⟩, rfl, rfl⟩
      · refine ⟨?_, ⟨rfl, rfl, rfl, rfl, h5, h6⟩, rfl, rfl⟩
        simp only [mapErr, key]
      · exact ⟨rfl, ⟨rfl, rfl, rfl, rfl, h5, h6⟩, rfl, rfl⟩
  · simp only
    cases p with
    | true => exact ⟨rfl, ⟨rfl, rfl, rfl, rfl, h5, h6⟩, rfl, rfl⟩
    | false =>
      simp only [Bool.false_eq_true, ↓reduceIte]
      generalize r.callMut cx.nightly info.default cx.tid args = o
      rcases o with ⟨e | (e | v), nx, rn⟩
      · exact ⟨rfl, ⟨rfl, rfl, rfl, rfl, h5, h6⟩, rfl, rfl⟩
      · refine ⟨?_, ⟨rfl, rfl, rfl, rfl, h5, h6⟩, rfl, rfl⟩
        simp only [mapErr, key]
      · exact ⟨rfl, ⟨rfl, rfl, rfl, rfl, h5, h6⟩, rfl, rfl⟩

theorem Expectation.Sim.call {er : String → String} {a b : Expectation V} (h : a.Sim er b) (cx : Cx V)
    (info : FnInfo V) (args : List V) {w w' : World V} (hw : w.Sim w') :
    mapErr er (a.call cx info args w).1 = mapErr er (b.call cx info args w').1 ∧
    (a.call cx info args w).2.1.Sim er (b.call cx info args w').2.1 ∧
    (a.call cx info args w).2.2.Sim (b.call cx info args w').2.2 := by
  have hc := Common.call_sim (er := er) info.funcname (callDesc cx info args) a.common.matcher
    b.common.matcher a.common.mpoison a.common.seqHandle a.common.times w.seqs h.descr
  have ha : (⟨a.common.matcher, a.common.mpoison, a.common.seqHandle, a.common.times⟩ : Common V) = a.common := rfl
  have hb : (⟨b.common.matcher, a.common.mpoison, a.common.seqHandle, a.common.times⟩ : Common V) = b.common := by
    rw [h.poison, h.seq, h.times]
  rw [ha, hb] at hc
  have h1 := Common.call_eq info.funcname (callDesc cx info args) a.common w.seqs
  have h2 := Common.call_eq info.funcname (callDesc cx info args) b.common w.seqs
  have hs : Expectation.Sim er
      { a with common := (a.common.call info.funcname (callDesc cx info args) w.seqs).2.1 }
      { b with common := (b.common.call info.funcname (callDesc cx info args) w.seqs).2.1 } := by
    rw [h1, h2]
    exact ⟨h.poison, h.seq, by simp only [h.times], h.ret, h.acc, h.descr⟩
  have ca := Expectation.call_cases cx info args a w
  have cb := Expectation.call_cases cx info args b w'
  dsimp only at ca cb
  rw [← hw.seqs] at cb
  rcases ca with ⟨p, hp, e1⟩ | ⟨hp, e1⟩ <;> rcases cb with ⟨p', hp', e2⟩ | ⟨hp', e2⟩
  · rw [e1, e2]
    rw [hp, hp'] at hc
    exact ⟨by simpa [mapErr] using hc.1, hs, hc.2, hw.runs⟩
  · rw [hp, hp'] at hc; simp [mapErr] at hc
  · rw [hp, hp'] at hc; simp [mapErr] at hc
  · rw [e1, e2]
    exact hs.ret_call cx info args ⟨hc.2, hw.runs⟩

/-- Lists of expectations that behave alike, position by position. -/
inductive AllSim (er : String → String) : List (Expectation V) → List (Expectation V) → Prop
  | nil : AllSim er [] []
  | cons {a b as bs} : a.Sim er b → AllSim er as bs → AllSim er (a :: as) (b :: bs)

theorem AllSim.refl (er : String → String) (l : List (Expectation V)) : AllSim er l l := by
  induction l with
  | nil => exact .nil
  | cons a l ih => exact .cons (.refl er a) ih

theorem AllSim.append {er : String → String} {a b c d : List (Expectation V)} (h : AllSim er a b)
    (h' : AllSim er c d) : AllSim er (a ++ c) (b ++ d) := by
  induction h with
  | nil => exact h'
  | cons hx _ ih => exact .cons hx ih

theorem AllSim.length {er : String → String} {a b : List (Expectation V)} (h : AllSim er a b) :
    a.length = b.length := by
  induction h with
  | nil => rfl
  | cons _ _ ih => simp [ih]

/-- Outcome of a scan, related. -/
structure ScanSim (er : String → String) (R : List (Expectation V) → List (Expectation V) → Prop)
    (o o' : Except Panic (Option V) × List (Expectation V) × World V) : Prop where
  res : mapErr er o.1 = mapErr er o'.1
  list : R o.2.1 o'.2.1
  world : o.2.2.Sim o'.2.2

/-- One element of the scan, the rest given. -/
theorem scan_cons {er : String → String} {R R' : List (Expectation V) → List (Expectation V) → Prop}
    (cx : Cx V) (info : FnInfo V) (args : List V) (n : Nat) {a b : Expectation V}
    {as bs : List (Expectation V)} {w w' : World V} (h : a.Sim er b) (hw : w.Sim w')
    (hrest : ScanSim er R (callScan cx info args n as w) (callScan cx info args n bs w'))
    (hR : R as bs) (hc : ∀ {x y xs ys}, Expectation.Sim er x y → x.common.matcher = a.common.matcher →
      (∀ r, a.common.matcher.matches cx.tid args = .ok r → x.common.mpoison = a.common.mpoison) →
      R xs ys → R' (x :: xs) (y :: ys)) :
    ScanSim er R' (callScan cx info args n (a :: as) w) (callScan cx info args n (b :: bs) w') := by
  obtain ⟨hm1, hm2⟩ := h.matches cx.tid args
  have hmm : (a.matches cx.tid args).2.common.matcher = a.common.matcher ∧
      (∀ r, a.common.matcher.matches cx.tid args = .ok r →
        (a.matches cx.tid args).2.common.mpoison = a.common.mpoison) := by
    simp only [Expectation.matches, Common.matches]
    repeat' split
    all_goals simp_all
  unfold callScan
  rcases ha : a.matches cx.tid args with ⟨r, a'⟩
  rcases hb : b.matches cx.tid args with ⟨r', b'⟩
  rw [ha, hb] at hm1 hm2
  rw [ha] at hmm
  obtain ⟨hmm, hmp⟩ := hmm
  simp only at hm1 hm2 hmm hmp
  subst hm1
  rcases r with p | (_ | _)
  · exact ⟨rfl, hc hm2 hmm hmp hR, hw⟩
  · exact ⟨hrest.res, hc hm2 hmm hmp hrest.list, hrest.world⟩
  · have hd : a'.isDone = b'.isDone := by
      simp [Expectation.isDone, Common.isDone, hm2.times]
    simp only [hd]
    rcases b'.isDone with p | d
    · exact ⟨rfl, hc hm2 hmm hmp hR, hw⟩
    · simp only
      split
      · have hcall := hm2.call cx info args hw
        have hfr := Expectation.call_frame cx info args a' w
        simp only at hfr
        have hmc : (a'.call cx info args w).2.1.common.matcher = a.common.matcher := by
          rw [hfr]; exact hmm
        have hmq : ∀ r, a.common.matcher.matches cx.tid args = .ok r →
            (a'.call cx info args w).2.1.common.mpoison = a.common.mpoison := by
          rw [hfr]; exact hmp
        rcases ha' : a'.call cx info args w with ⟨r1, a2, w2⟩
        rcases hb' : b'.call cx info args w' with ⟨r2, b2, w3⟩
        rw [ha', hb'] at hcall
        rw [ha'] at hmc hmq
        obtain ⟨c1, c2, c3⟩ := hcall
        simp only at c1 c2 c3 hmc hmq
        rcases r1 with p1 | v1 <;> rcases r2 with p2 | v2 <;> simp [mapErr] at c1
        · exact ⟨by simp [mapErr, c1], hc c2 hmc hmq hR, c3⟩
        · exact ⟨by simp [mapErr, c1], hc c2 hmc hmq hR, c3⟩
      · exact ⟨hrest.res, hc hm2 hmm hmp hrest.list, hrest.world⟩

theorem AllSim.scan {er : String → String} (cx : Cx V) (info : FnInfo V) (args : List V) (n : Nat)
    {as bs : List (Expectation V)} {w w' : World V} (h : AllSim er as bs) (hw : w.Sim w') :
    ScanSim er (AllSim er) (callScan cx info args n as w) (callScan cx info args n bs w') := by
  induction h with
  | nil => exact ⟨rfl, .nil, hw⟩
  | cons hx hl ih => exact scan_cons cx info args n hx hw ih hl fun hx _ _ hr => .cons hx hr

/-- The two accept no common call, and their predicates do not panic. -/
def Disjoint (a b : Matcher V) : Prop :=
  ∀ tid args, ∃ x y, a.matches tid args = .ok x ∧ b.matches tid args = .ok y ∧ (x && y) = false

/-- Equal lists but for two neighbours that are swapped. -/
inductive Swapped (er : String → String) : List (Expectation V) → List (Expectation V) → Prop
  | here {a a' b b' as bs} : a.Sim er a' → b.Sim er b' → Disjoint a.common.matcher b.common.matcher →
      a.common.mpoison = false → b.common.mpoison = false → AllSim er as bs →
      Swapped er (a :: b :: as) (b' :: a' :: bs)
  | cons {a b as bs} : a.Sim er b → Swapped er as bs → Swapped er (a :: as) (b :: bs)

theorem Swapped.length {er : String → String} {a b : List (Expectation V)} (h : Swapped er a b) :
    a.length = b.length := by
  induction h with
  | here _ _ _ _ _ h => simp [h.length]
  | cons _ _ ih => simp [ih]

theorem Swapped.append {er : String → String} {a b c d : List (Expectation V)} (h : Swapped er a b)
    (h' : AllSim er c d) : Swapped er (a ++ c) (b ++ d) := by
  induction h with
  | here h1 h2 h3 h4 h5 h6 => exact .here h1 h2 h3 h4 h5 (h6.append h')
  | cons hx _ ih => exact .cons hx ih

theorem AllSim.appendSwapped {er : String → String} {a b c d : List (Expectation V)} (h : AllSim er a b)
    (h' : Swapped er c d) : Swapped er (a ++ c) (b ++ d) := by
  induction h with
  | nil => exact h'
  | cons hx _ ih => exact .cons hx ih

/-- Scanning past an expectation that does not accept. -/
theorem scan_no (cx : Cx V) (info : FnInfo V) (args : List V) (n : Nat) {a : Expectation V}
    {as : List (Expectation V)} {w : World V} (hm : a.common.matcher.matches cx.tid args = .ok false)
    (hp : a.common.mpoison = false) :
    callScan cx info args n (a :: as) w =
      ((callScan cx info args n as w).1, a :: (callScan cx info args n as w).2.1,
        (callScan cx info args n as w).2.2) := by
  have : a.matches cx.tid args = (.ok false, a) := by
    simp [Expectation.matches, Common.matches, hp, hm]
  rw [callScan, this]

theorem Swapped.scan {er : String → String} (cx : Cx V) (info : FnInfo V) (args : List V) (n : Nat)
    {as bs : List (Expectation V)} {w w' : World V} (h : Swapped er as bs) (hw : w.Sim w') :
    ScanSim er (Swapped er) (callScan cx info args n as w) (callScan cx info args n bs w') := by
  induction h with
  | cons hx hl ih => exact scan_cons cx info args n hx hw ih hl fun hx _ _ hr => .cons hx hr
  | @here a a' b b' as bs ha hb hd hpa hpb hl =>
    obtain ⟨x, y, hx, hy, hxy⟩ := hd cx.tid args
    have hrest := hl.scan cx info args n hw
    have hx' : a'.common.matcher.matches cx.tid args = .ok x := by rw [← ha.acc, hx]
    have hy' : b'.common.matcher.matches cx.tid args = .ok y := by rw [← hb.acc, hy]
    have hpa' : a'.common.mpoison = false := by rw [← ha.poison, hpa]
    have hpb' : b'.common.mpoison = false := by rw [← hb.poison, hpb]
    cases y with
    | false =>
      -- `b` is passed over on both sides; `a` decides
      rw [scan_no cx info args n hy' hpb']
      have hs : ScanSim er (fun xs ys => Swapped er xs (b' :: ys))
          (callScan cx info args n (a :: b :: as) w) (callScan cx info args n (a' :: bs) w') := by
        refine scan_cons (R := fun xs ys => ∃ zs, xs = b :: zs ∧ AllSim er zs ys) cx info args n ha hw
          ?_ ⟨as, rfl, hl⟩ ?_
        · rw [scan_no cx info args n hy hpb]
          exact ⟨hrest.res, ⟨_, rfl, hrest.list⟩, hrest.world⟩
        · rintro u v xs ys huv hm hp ⟨zs, rfl, hz⟩
          refine .here huv hb ?_ ?_ hpb hz
          · rw [hm]; exact hd
          · rw [hp x hx, hpa]
      exact ⟨hs.res, hs.list, hs.world⟩
    | true =>
      have hxf : x = false := by simpa using hxy
      subst hxf
      -- `a` is passed over on both sides; `b` decides
      rw [scan_no cx info args n hx hpa]
      have hs : ScanSim er (fun xs ys => Swapped er (a :: xs) ys)
          (callScan cx info args n (b :: as) w) (callScan cx info args n (b' :: a' :: bs) w') := by
        refine scan_cons (R := fun xs ys => ∃ zs, ys = a' :: zs ∧ AllSim er xs zs) cx info args n hb hw
          ?_ ⟨bs, rfl, hl⟩ ?_
        · rw [scan_no cx info args n hx' hpa']
          exact ⟨hrest.res, ⟨_, rfl, hrest.list⟩, hrest.world⟩
        · rintro u v xs ys huv hm hp ⟨zs, rfl, hz⟩
          refine .here ha huv ?_ hpa ?_ hz
          · rw [hm]; exact hd
          · rw [hp true hy, hpb]
      exact ⟨hs.res, hs.list, hs.world⟩

/-- Builder calls that do the same, up to the description of the matcher. -/
inductive BuildSim (er : String → String) : Build V → Build V → Prop
  | refl (b) : BuildSim er b b
  | matcher {b b' : Build V} {m m' : Matcher V} : matcherOf b = some m → matcherOf b' = some m' →
      (∀ tid args, m.matches tid args = m'.matches tid args) → er m.display = er m'.display → BuildSim er b b'

theorem build_matcher {b : Build V} {m : Matcher V} (h : matcherOf b = some m) (e : Expectation V) (q : Seqs) :
    e.build b q = ((e.setMatcher m).1, (e.setMatcher m).2, q) := by
  cases b <;> simp [matcherOf] at h <;> subst h <;> rfl

theorem Expectation.Sim.build {er : String → String} {a a' : Expectation V} {b b' : Build V}
    (hb : BuildSim er b b') (h : a.Sim er a') (q : Seqs) :
    (a.build b q).1 = (a'.build b' q).1 ∧ (a.build b q).2.1.Sim er (a'.build b' q).2.1 ∧
      (a.build b q).2.2 = (a'.build b' q).2.2 := by
  obtain ⟨ga, ia, ca, ⟨ma, pa, sa, ta⟩, ra⟩ := a
  obtain ⟨gb, ib, cb, ⟨mb, pb, sb, tb⟩, rb⟩ := a'
  obtain ⟨h1, h2, h3, h4, h5, h6⟩ := h
  simp only at h1 h2 h3 h4 h5 h6
  subst h1 h2 h3 h4
  cases hb with
  | refl =>
    cases b <;> simp only [Expectation.build, Expectation.setMatcher, Expectation.setStatic,
        Common.inSequence] <;> (repeat' split) <;>
      first
        | (refine ⟨rfl, ⟨?_, ?_, ?_, ?_, ?_, ?_⟩, rfl⟩ <;> simp_all; done)
        | (simp_all; done)
        | (simp_all; constructor <;> simp_all)
  | matcher h1 h2 h3 h4 =>
    rw [build_matcher h1, build_matcher h2]
    simp only [Expectation.setMatcher]
    split
    · exact ⟨rfl, ⟨rfl, rfl, rfl, rfl, h5, h6⟩, trivial⟩
    · exact ⟨rfl, ⟨rfl, rfl, rfl, rfl, h3, h4⟩, trivial⟩

/-- Builder chains that do the same. -/
inductive ChainSim (er : String → String) : List (Build V) → List (Build V) → Prop
  | nil : ChainSim er [] []
  | cons {b b' bs bs'} : BuildSim er b b' → ChainSim er bs bs' → ChainSim er (b :: bs) (b' :: bs')

theorem ChainSim.refl (er : String → String) (bs : List (Build V)) : ChainSim er bs bs := by
  induction bs with
  | nil => exact .nil
  | cons b bs ih => exact .cons (.refl b) ih

theorem Expectation.Sim.builds {er : String → String} {bs bs' : List (Build V)}
    (hb : ChainSim er bs bs') {a a' : Expectation V} (h : a.Sim er a') (q : Seqs) :
    (a.builds bs q).1 = (a'.builds bs' q).1 ∧ (a.builds bs q).2.1.Sim er (a'.builds bs' q).2.1 ∧
      (a.builds bs q).2.2 = (a'.builds bs' q).2.2 := by
  induction hb generalizing a a' q with
  | nil => exact ⟨rfl, h, rfl⟩
  | @cons b b' bs bs' hb _ ih =>
    obtain ⟨h1, h2, h3⟩ := h.build hb q
    unfold Expectation.builds
    rcases ha : a.build b q with ⟨r, a1, q1⟩
    rcases ha' : a'.build b' q with ⟨r', a2, q2⟩
    rw [ha, ha'] at h1 h2 h3
    simp only at h1 h2 h3
    subst h1 h3
    cases r with
    | error p => exact ⟨rfl, h2, rfl⟩
    | ok u =>
      exact ih (a := { a1 with chain := a.chain ++ [b] }) (a' := { a2 with chain := a'.chain ++ [b'] })
        ⟨h2.poison, h2.seq, h2.times, h2.ret, h2.acc, h2.descr⟩ q1

/-- Operations that do the same. -/
inductive OpSim (er : String → String) : MOp V → MOp V → Prop
  | expect {bs bs'} : ChainSim er bs bs' → OpSim er (.expect bs) (.expect bs')
  | call (tid args upd) : OpSim er (.call tid args upd) (.call tid args upd)

inductive OpsSim (er : String → String) : List (MOp V) → List (MOp V) → Prop
  | nil : OpsSim er [] []
  | cons {o o' os os'} : OpSim er o o' → OpsSim er os os' → OpsSim er (o :: os) (o' :: os')

theorem OpsSim.refl (er : String → String) (os : List (MOp V)) : OpsSim er os os := by
  induction os with
  | nil => exact .nil
  | cons o os ih =>
    cases o with
    | expect bs => exact .cons (.expect (.refl er bs)) ih
    | call t a u => exact .cons (.call t a u) ih

/-- Rewrite matcher descriptions in what the user sees. -/
def MObs.mapDescr (er : String → String) : MObs V → MObs V
  | .expected r => .expected r
  | .returned r => .returned (mapErr er r)

theorem MObs.mapDescr_id (o : MObs V) : o.mapDescr id = o := by
  cases o <;> simp [MObs.mapDescr, mapErr_id]

theorem expectMatch_mapErr {er : String → String} (cx : Cx V) (info : FnInfo V) (args : List V)
    {r r' : Except Panic (Option V)} (h : mapErr er r = mapErr er r') :
    mapErr er (expectMatch cx info args r) = mapErr er (expectMatch cx info args r') := by
  rcases r with p | (_ | v) <;> rcases r' with p' | (_ | v') <;> simp_all [mapErr, expectMatch]

/-- Programs that do the same, started in states that behave alike. -/
theorem run_related {er : String → String} {R : List (Expectation V) → List (Expectation V) → Prop}
    (hlen : ∀ {a b}, R a b → a.length = b.length)
    (hscan : ∀ (cx : Cx V) info args n {a b w w'}, R a b → w.Sim w' →
      ScanSim er R (callScan cx info args n a w) (callScan cx info args n b w'))
    (happ : ∀ {a b x y}, R a b → Expectation.Sim er x y → R (a ++ [x]) (b ++ [y]))
    (nightly : Bool) (dbg : V → String) (info : FnInfo V) {ops ops' : List (MOp V)} (ho : OpsSim er ops ops')
    {a b : List (Expectation V)} {w w' : World V} (h : R a b) (hw : w.Sim w') :
    (MState.run nightly dbg info ops ⟨a, w⟩).1.map (MObs.mapDescr er) =
      (MState.run nightly dbg info ops' ⟨b, w'⟩).1.map (MObs.mapDescr er) ∧
    (MState.run nightly dbg info ops ⟨a, w⟩).2.world.runs =
      (MState.run nightly dbg info ops' ⟨b, w'⟩).2.world.runs ∧
    R (MState.run nightly dbg info ops ⟨a, w⟩).2.exps (MState.run nightly dbg info ops' ⟨b, w'⟩).2.exps := by
  induction ho generalizing a b w w' with
  | nil => exact ⟨rfl, hw.runs, h⟩
  | @cons o o' os os' ho _ ih =>
    cases ho with
    | @expect bs bs' hbs =>
      have hnew : Expectation.Sim er (Expectation.new nightly info w.fresh) (Expectation.new nightly info w'.fresh) :=
        ⟨rfl, rfl, rfl, rfl, fun _ _ => rfl, rfl⟩
      obtain ⟨h1, h2, h3⟩ := hnew.builds hbs w.seqs
      have h2' : Expectation.Sim er ((Expectation.new nightly info w.fresh).builds bs w.seqs).2.1
        ((Expectation.new nightly info w'.fresh).builds bs' w'.seqs).2.1 := by rw [← hw.seqs]; exact h2
      obtain ⟨i1, i2, i3⟩ := ih (happ h h2')
        (w := { w with seqs := ((Expectation.new nightly info w.fresh).builds bs w.seqs).2.2, fresh := w.fresh + 1, made := w.made ++ [((Expectation.new nightly info w.fresh).builds bs w.seqs).2.1.chain] })
        (w' := { w' with seqs := ((Expectation.new nightly info w'.fresh).builds bs' w'.seqs).2.2, fresh := w'.fresh + 1, made := w'.made ++ [((Expectation.new nightly info w'.fresh).builds bs' w'.seqs).2.1.chain] })
        ⟨by simp only [← hw.seqs]; exact h3, hw.runs⟩
      refine ⟨?_, i2, i3⟩
      simp only [MState.run, MState.step, Expectations.expect, List.map_cons, List.cons.injEq]
      refine ⟨?_, i1⟩
      rw [← hw.seqs, h1]
    | call tid args upd =>
      have hs := hscan ⟨nightly, tid, dbg, upd⟩ info args a.length h hw
      obtain ⟨i1, i2, i3⟩ := ih hs.list hs.world
      have hl := hlen h
      simp only [MState.run, MState.step, Expectations.method, Expectations.call, List.map_cons,
        List.cons.injEq, ← hl]
      refine ⟨⟨?_, i1⟩, i2, i3⟩
      simp only [MObs.mapDescr]
      rw [expectMatch_mapErr _ _ _ hs.res]

theorem MState.run_append (nightly : Bool) (dbg : V → String) (info : FnInfo V) (a b : List (MOp V))
    (s : MState V) :
    MState.run nightly dbg info (a ++ b) s =
      ((MState.run nightly dbg info a s).1 ++ (MState.run nightly dbg info b (MState.run nightly dbg info a s).2).1,
        (MState.run nightly dbg info b (MState.run nightly dbg info a s).2).2) := by
  induction a generalizing s with
  | nil => rfl
  | cons o a ih => simp [MState.run, ih]

end Mockall
