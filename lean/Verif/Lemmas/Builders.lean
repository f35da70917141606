import Verif.Spec.Builders
import Verif.Lemmas.CallShape

/-! # Helper lemmas: builder chains -/

set_option linter.unusedSimpArgs false

namespace Mockall

open Spec

variable {V : Type}

theorem lastOf_nil {α β : Type} (g : α → Option β) (d : β) : lastOf g d [] = d := by
  simp [lastOf]

theorem lastOf_cons {α β : Type} (g : α → Option β) (d : β) (b : α) (bs : List α) :
    lastOf g d (b :: bs) = lastOf g ((g b).getD d) bs := by
  unfold lastOf
  cases h : g b with
  | none => simp [h]
  | some x =>
    simp only [List.filterMap_cons, h]
    cases hl : (bs.filterMap g).getLast? with
    | none =>
      have : bs.filterMap g = [] := List.getLast?_eq_none_iff.mp hl
      simp [this]
    | some y =>
      simp [List.getLast?_cons, hl]


theorem lastOf_snoc {α β : Type} (g : α → Option β) (d : β) (b : α) (bs : List α) :
    lastOf g d (bs ++ [b]) = (g b).getD (lastOf g d bs) := by
  unfold lastOf
  cases h : g b <;> simp [h]

theorem addOne_inv {n v : Nat} (h : addOne n = .ok v) : v = n + 1 := by
  unfold addOne at h
  split at h <;> simp_all

theorem from_halfOpen {a : TimesArg} {r : TimesRange} (h : TimesRange.from a = .ok r) : r = halfOpen a := by
  cases a <;> simp only [TimesRange.from, halfOpen, bind, Except.bind, pure, Except.pure] at h ⊢ <;>
    (repeat' split at h) <;> simp_all <;> (subst h; simp [addOne_inv ‹_›])

/-- The kind of a return function. -/
def Ret.kind : Ret V → RetKind
  | .ref _ => .ref
  | .refMut _ => .refMut
  | .static _ _ => .static

/-- The return function is not behind a poisoned lock. -/
def Ret.clean : Ret V → Bool
  | .static _ p => !p
  | _ => true

/-- Sequence handle after a builder call that succeeded. -/
def seqOf (q : Seqs) : Build V → Option SeqHandle
  | .inSequence sid => some ⟨sid, (q sid).next⟩
  | _ => none

/-- What one successful builder call does. -/
theorem Expectation.build_ok {b : Build V} {e e' : Expectation V} {q q' : Seqs}
    (h : e.build b q = (.ok (), e', q')) (hp : e.common.mpoison = false) (hr : e.ret.clean = true) :
    e' = { e with
      common := { e.common with
        times := { e.common.times with range := (countOf b).getD e.common.times.range }
        matcher := (matcherOf b).getD e.common.matcher
        seqHandle := (seqOf q b).or e.common.seqHandle }
      ret := (retOf e.ret.kind b).getD e.ret } := by
  obtain ⟨g, i, c, ⟨m, mp, sh, t⟩, r⟩ := e
  simp only at hp
  subst hp
  cases b <;>
    simp only [Expectation.build, Expectation.setMatcher, Expectation.setStatic, Times.times,
      Times.never, Common.inSequence, countOf, matcherOf, retOf, seqOf, Seqs.nextHandle,
      constClosure] at h ⊢ <;>
    cases r <;> simp only [Ret.clean, Ret.kind] at hr ⊢ <;>
    (repeat' split at h) <;> simp_all <;>
    (try (have := from_halfOpen ‹_›; simp_all)) <;>
    (try (obtain ⟨rfl, rfl⟩ := h)) <;> (try simp_all) <;> (try (subst_vars; rfl)) 

theorem Expectation.build_clean {b : Build V} {e e' : Expectation V} {q q' : Seqs}
    (h : e.build b q = (.ok (), e', q')) (hp : e.common.mpoison = false) (hr : e.ret.clean = true) :
    e'.ret.clean = true ∧ e'.ret.kind = e.ret.kind := by
  rw [Expectation.build_ok h hp hr]
  simp only
  cases hk : e.ret.kind <;> cases b <;> simp [retOf, Ret.clean, Ret.kind] <;>
    first | exact ⟨hr, hk⟩ | simp_all

/-- When a builder call succeeds, given the present count window. -/
def okCond (t : Times) : Build V → Bool
  | .times a => match TimesRange.from a with | .ok _ => true | .error _ => false
  | .inSequence _ => t.isExact
  | _ => true

/-- The sequences after a successful builder call. -/
def seqsOf (q : Seqs) : Build V → Seqs
  | .inSequence sid => (q.nextHandle sid).2
  | _ => q

theorem Expectation.build_okCond {b : Build V} {e e' : Expectation V} {q q' : Seqs}
    (h : e.build b q = (.ok (), e', q')) : okCond e.common.times b = true ∧ q' = seqsOf q b := by
  obtain ⟨g, i, c, ⟨m, mp, sh, t⟩, r⟩ := e
  cases b <;>
    simp only [Expectation.build, Expectation.setMatcher, Expectation.setStatic, Times.times,
      Times.never, Common.inSequence, okCond, seqsOf] at h ⊢ <;>
    cases r <;> (repeat' split at h) <;> simp_all

theorem Expectation.build_of_okCond {b : Build V} {e : Expectation V} (q : Seqs)
    (h : okCond e.common.times b = true) (hp : e.common.mpoison = false) (hr : e.ret.clean = true) :
    ∃ e', e.build b q = (.ok (), e', seqsOf q b) := by
  obtain ⟨g, i, c, ⟨m, mp, sh, t⟩, r⟩ := e
  simp only at hp
  subst hp
  rcases r with r | r | ⟨r, _ | _⟩ <;> simp [Ret.clean] at hr <;>
  cases b <;>
    simp only [Expectation.build, Expectation.setMatcher, Expectation.setStatic, Times.times,
      Times.never, Common.inSequence, okCond, seqsOf] at h ⊢ <;>
    (repeat' split at h) <;> simp_all [TimesRange.from, addOne, bind, Except.bind, pure, Except.pure,
      Functor.map, Except.map] <;> rfl

/-- A fresh expectation has the settings of an empty chain, and so on: for every kind the last
setting of that kind. -/
structure Cfg (nightly : Bool) (info : FnInfo V) (e : Expectation V) : Prop where
  poison : e.common.mpoison = false
  count : e.common.times.count = 0
  clean : e.ret.clean = true
  kind : e.ret.kind = info.kind
  range : e.common.times.range = lastOf countOf ⟨0, usizeMax⟩ e.chain
  matcher : e.common.matcher = lastOf matcherOf .always e.chain
  ret : e.ret = lastOf (retOf info.kind) (retDefault nightly info) e.chain
  seq : e.common.seqHandle.map (·.sid) = lastOf sequenceOf none e.chain
  info : e.info = info

theorem Cfg.new (nightly : Bool) (info : FnInfo V) (g : Nat) :
    Cfg nightly info (Expectation.new nightly info g) := by
  constructor <;> simp [Expectation.new, Common.dflt, Times.dflt, TimesRange.dflt, lastOf_nil,
    Matcher.dflt, retDefault, maybeReturnDefault] <;> cases info.kind <;> simp [Ret.clean, Ret.kind]

theorem Cfg.build {nightly : Bool} {info : FnInfo V} {e e' : Expectation V} {q q' : Seqs} {b : Build V}
    (hc : Cfg nightly info e) (h : e.build b q = (.ok (), e', q')) :
    Cfg nightly info { e' with chain := e.chain ++ [b] } := by
  have h1 := Expectation.build_ok h hc.poison hc.clean
  have h2 := Expectation.build_clean h hc.poison hc.clean
  obtain ⟨c1, c2, c3, c4, c5, c6, c7, c8, c9⟩ := hc
  constructor <;> simp only [lastOf_snoc]
  · rw [h1]; exact c1
  · rw [h1]; exact c2
  · exact h2.1
  · rw [h2.2]; exact c4
  · rw [h1, ← c5]
  · rw [h1, ← c6]
  · rw [h1, ← c7, c4]
  · rw [h1, ← c8]
    cases b <;> simp [seqOf, sequenceOf]
  · rw [h1]; exact c9

/-- A builder call that panics changes nothing. -/
theorem Expectation.build_err {b : Build V} {e e' : Expectation V} {q q' : Seqs} {p : Panic}
    (h : e.build b q = (.error p, e', q')) : e' = e ∧ q' = q := by
  obtain ⟨g, i, c, ⟨m, mp, sh, t⟩, r⟩ := e
  cases b <;>
    simp only [Expectation.build, Expectation.setMatcher, Expectation.setStatic, Times.times,
      Times.never, Common.inSequence] at h <;>
    cases r <;> (repeat' split at h) <;> simp_all

theorem Cfg.builds {nightly : Bool} {info : FnInfo V} {e : Expectation V} (q : Seqs) (bs : List (Build V))
    (hc : Cfg nightly info e) : Cfg nightly info (e.builds bs q).2.1 := by
  induction bs generalizing e q with
  | nil => exact hc
  | cons b bs ih =>
    unfold Expectation.builds
    rcases hb : e.build b q with ⟨r, e1, q1⟩
    cases r with
    | error p =>
      obtain ⟨rfl, _⟩ := Expectation.build_err hb
      exact hc
    | ok u => exact ih q1 (hc.build hb)

/-- The count window in terms of the `times` argument. -/
theorem lastOf_countOf (chain : List (Build V)) :
    lastOf countOf ⟨0, usizeMax⟩ chain = halfOpen (countArg chain) := by
  have h : ∀ (d : TimesArg) (c : List (Build V)), lastOf countOf (halfOpen d) c = halfOpen (lastOf timesOf d c) := by
    intro d c
    induction c generalizing d with
    | nil => simp [lastOf_nil]
    | cons b c ih =>
      rw [lastOf_cons, lastOf_cons, ← ih]
      cases b <;> simp [countOf, timesOf, halfOpen]
  exact h .rangeFull chain

/-- If the chain completes, the ghost `chain` is the chain. -/
theorem Expectation.builds_chain {bs : List (Build V)} {e e' : Expectation V} {q q' : Seqs}
    (h : e.builds bs q = (.ok (), e', q')) : e'.chain = e.chain ++ bs := by
  induction bs generalizing e q with
  | nil => simp [Expectation.builds] at h; simp [h.1]
  | cons b bs ih =>
    unfold Expectation.builds at h
    rcases hb : e.build b q with ⟨r, e1, q1⟩
    rw [hb] at h
    cases r with
    | error p => simp at h
    | ok u =>
      have := ih h
      simp at this
      simp [this]

/-- In general it is an initial part of the chain. -/
theorem Expectation.builds_prefix (bs : List (Build V)) (e : Expectation V) (q : Seqs) :
    ∃ pre, pre <+: bs ∧ (e.builds bs q).2.1.chain = e.chain ++ pre := by
  induction bs generalizing e q with
  | nil => exact ⟨[], List.prefix_refl _, by simp [Expectation.builds]⟩
  | cons b bs ih =>
    unfold Expectation.builds
    rcases hb : e.build b q with ⟨r, e1, q1⟩
    cases r with
    | error p =>
      obtain ⟨rfl, _⟩ := Expectation.build_err hb
      exact ⟨[], List.nil_prefix, by simp⟩
    | ok u =>
      obtain ⟨pre, h1, h2⟩ := ih { e1 with chain := e.chain ++ [b] } q1
      refine ⟨b :: pre, List.cons_prefix_cons.mpr ⟨rfl, h1⟩, ?_⟩
      simp [h2]

/-- The model's matcher and the specification's verdict agree on every builder chain. -/
theorem verdict_matches (tid : Nat) (args : List V) (chain : List (Build V)) :
    (lastOf matcherOf .always chain).matches tid args = verdict tid args chain := by
  have hev : ∀ (ps : List (Pred V)) (as : List V),
      ((evalAll ps as).map fun bs => bs.all id) =
        (ps.zip as).foldr (fun pa r => do let b ← pa.1.eval pa.2; let c ← r; return b && c) (.ok true) := by
    intro ps
    induction ps with
    | nil => intro as; simp [evalAll, Except.map]
    | cons p ps ih =>
      intro as
      cases as with
      | nil => simp [evalAll, Except.map]
      | cons a as =>
        simp only [List.zip_cons_cons, List.foldr_cons, ← ih as, evalAll]
        cases p.eval a <;> cases evalAll ps as <;>
          simp [bind, Except.bind, pure, Except.pure, Except.map]
  have hdec : ∀ b : Build V, decision tid args b = (matcherOf b).map fun m => m.matches tid args := by
    intro b
    cases b <;> simp only [decision, matcherOf, Matcher.matches, Option.map_some, Option.map_none]
    rw [← hev]
    rename_i ps
    cases evalAll ps args <;> simp [bind, Except.bind, pure, Except.pure, Except.map]
  unfold verdict lastOf
  have : chain.filterMap (decision tid args) = (chain.filterMap matcherOf).map fun m => m.matches tid args := by
    rw [List.map_filterMap]
    congr 1
    funext b
    exact hdec b
  rw [this, List.getLast?_map]
  cases (chain.filterMap matcherOf).getLast? <;> simp [Matcher.matches]

end Mockall
