import Verif.Lemmas.ConcMixedSeq
import Verif.Spec.MixedOrder

/-! # Sequences that span objects and static methods, under concurrency (C87) -/

namespace Mockall

open Spec.Mixed

variable {V : Type}

theorem recorded_hits (g : Nat) (log : List (Hit V)) : recorded g log = hits g log := by
  unfold recorded hits
  rw [List.countP_eq_length_filter]

theorem Spec.Mixed.Ready.fresh1 {heap : Nat → Cell V} {fns : Nat → StaticFn V} {w : World V} {sid : Nat}
    (h : Ready heap fns w sid) : (⟨heap, w.seqs, w.runs⟩ : Mem V).Fresh1 sid :=
  ⟨fun a k => h.one k a, fun a b k => h.objects k a b, fun a k => h.zero k a, h.level⟩

theorem Spec.Mixed.StaticMember.rel {s : UState V} {sid n : Nat} {e : Expectation V} (h : StaticMember s sid n e) :
    s.stats.Rel e.gid e.common.times (some ⟨sid, n⟩) := by
  obtain ⟨⟨f, k, he⟩, hh⟩ := h
  obtain ⟨i, hi⟩ := List.mem_iff_getElem?.1 he
  refine ⟨f, k, i, ?_⟩
  have : (s.stats.fns f).store.vec k = (s.fns f).store.vec k := rfl
  simp only [Store.marks, this, List.getElem?_map, hi, Option.map_some, hh]

theorem TState.Rel.mem {s : UState V} {g : Nat} {t : Times} {h : Option SeqHandle} (hr : s.stats.Rel g t h) :
    ∃ (f : Nat) (k : Key) (i : Nat) (e : Expectation V), ((s.fns f).store.vec k)[i]? = some e ∧ e.gid = g ∧
      e.common.times = t ∧ e.common.seqHandle = h := by
  obtain ⟨f, k, i, hr⟩ := hr
  have : (s.stats.fns f).store.vec k = (s.fns f).store.vec k := rfl
  simp only [Store.marks, this, List.getElem?_map] at hr
  cases he : ((s.fns f).store.vec k)[i]? with
  | none => rw [he] at hr; cases hr
  | some e => rw [he] at hr; cases hr; exact ⟨f, k, i, e, he, rfl, rfl, rfl⟩

theorem TState.Rel.member {s : UState V} {g : Nat} {t : Times} {sid n : Nat} (hr : s.stats.Rel g t (some ⟨sid, n⟩)) :
    ∃ e, StaticMember s sid n e ∧ e.gid = g ∧ e.common.times = t := by
  obtain ⟨f, k, i, e, he, h1, h2, h3⟩ := hr.mem
  exact ⟨e, ⟨⟨f, k, List.mem_of_getElem? he⟩, h3⟩, h1, h2⟩

theorem Spec.Mixed.Ready.balanced {heap : Nat → Cell V} {fns : Nat → StaticFn V} {w : World V} {sid : Nat}
    (h : Ready heap fns w sid) : (UState.rest heap fns w).stats.Balanced := by
  have hlog : (UState.rest heap fns w).stats.world.log = [] := h.log
  have hacts : (UState.rest heap fns w).stats.acts = [] := rfl
  have hsig : ∀ {f : Nat} {k : Key} {i g : Nat} {t : Times},
      (((UState.rest heap fns w).stats.fns f).store.sigs k)[i]? = some (g, t) →
      ∃ e, ((fns f).store.vec k)[i]? = some e ∧ e.gid = g ∧ e.common.times = t := by
    intro f k i g t hi
    have : ((UState.rest heap fns w).stats.fns f).store.vec k = (fns f).store.vec k := rfl
    simp only [Store.sigs, this, List.getElem?_map] at hi
    cases he : ((fns f).store.vec k)[i]? with
    | none => rw [he] at hi; cases hi
    | some e => rw [he] at hi; cases hi; exact ⟨e, rfl, rfl, rfl⟩
  unfold TState.Balanced
  rw [hlog]
  refine ⟨?_, by simp, ?_, ?_, ?_, ?_⟩
  · intro f k i g t hi
    obtain ⟨e, he, rfl, -⟩ := hsig hi
    exact (h.uncalled f k e (List.mem_of_getElem? he)).2
  · intro f k i g t f' k' i' t' hi hi'
    obtain ⟨e, he, hg, -⟩ := hsig hi
    obtain ⟨e', he', hg', -⟩ := hsig hi'
    obtain ⟨h1, h2, h3⟩ := h.numbers f f' k k' i i' e e' he he' (hg.trans hg'.symm)
    refine ⟨h1, h2, ?_⟩
    have : ((UState.rest heap fns w).stats.fns f).store = (fns f).store := rfl
    rw [this]
    revert h3
    unfold SameKey Store.alike
    cases (fns f).store <;> exact fun h => h
  · intro f k i g t hi
    obtain ⟨e, he, -, rfl⟩ := hsig hi
    rw [(h.uncalled f k e (List.mem_of_getElem? he)).1, one_false]
    · rfl
    · rintro ⟨id, x, hx, -⟩
      rw [hacts] at hx
      simp at hx
  · intros
    rfl
  · intro _ f k i g t hi
    left
    rw [one_false]
    · rfl
    · rintro ⟨id, x, hx, -⟩
      rw [hacts] at hx
      simp at hx

theorem Spec.Mixed.Ready.useq {heap : Nat → Cell V} {fns : Nat → StaticFn V} {w : World V} {sid : Nat}
    (h : Ready heap fns w sid) : USeq ⟨heap, w.seqs, w.runs⟩ sid (UState.rest heap fns w) := by
  have hP : ∀ g ph, ¬ (UState.rest heap fns w).stats.At g ph := by
    rintro g ph ⟨j, y, i, t, h, hy, -⟩
    simp [UState.rest, UState.stats] at hy
  have hlog : (UState.rest heap fns w).world.log = [] := h.log
  have hlevel : ((UState.rest heap fns w).world.seqs sid).level = 0 := h.level
  refine ⟨CSeqInv.init h.fresh1, ?_⟩
  rw [hlog, hlevel]
  exact {
    lt := fun g t n hr => by
      obtain ⟨e, he, -⟩ := hr.member
      exact h.given n (.inr ⟨e, he⟩)
    obj := fun n ⟨a, ha⟩ => h.given n (.inl ⟨a, ha⟩)
    uniq := fun g g' t t' n hr hr' => by
      obtain ⟨e, he, rfl, -⟩ := hr.member
      obtain ⟨e', he', rfl, -⟩ := hr'.member
      exact h.statics n e e' he he'
    apart := fun g t n hr ⟨a, ha⟩ => by
      obtain ⟨e, he, -⟩ := hr.member
      exact h.apart n a e ha he
    level := Nat.zero_le _
    checked := fun g ph t n h => absurd h (hP _ _)
    due := fun g t h hp => absurd hp (hP _ _)
    built := fun g t n h => absurd h (hP _ _)
    began := fun x t n h => by simp at h
    done := fun g t n _ h => absurd h (Nat.not_lt_zero _)
    order := fun p x g t t' n m h => by simp at h
    sorted := fun p q x y t t' n m h => by simp at h
    ret := fun g h => absurd h (hP _ _)
    ceil := fun _ g ph t h hp => absurd hp (hP _ _)
    reach := fun _ g t n _ h1 h2 => by
      have : passes g ([] : List (Hit V)) = 0 := rfl
      omega }

/-- What holds after a schedule. -/
theorem useq_run {env : UEnv V} {heap : Nat → Cell V} {fns : Nat → StaticFn V} {w : World V} (hf : Fresh heap)
    {sid : Nat} (hr : Ready heap fns w sid)
    (sch : List (USched V)) {s : UState V} (hs : s = (UState.rest heap fns w).run env sch)
    (hfit : s.calls.length ≤ usizeMax) :
    UInv env ⟨heap, w.seqs, w.runs⟩ s ∧ s.stats.Balanced ∧ USeq ⟨heap, w.seqs, w.runs⟩ sid s := by
  subst hs
  have hi := UInv.rest env hf fns w
  exact ⟨UInv.run sch hi, UState.Balanced.run sch hi hr.balanced, USeq.run hr.fresh1 sch hi hr.balanced hr.useq hfit⟩

/-- An operation that executes no user code is the innermost one of its thread. -/
theorem UInv.innermost {env : UEnv V} {m0 : Mem V} {s : UState V} (h : UInv env m0 s) {p : Nat} {v : View}
    (hv : look s p = some v) (ho : v.over = false) (hu : v.user = none) : s.innermost p v.tid = true := by
  rw [UState.innermost_iff]
  intro q w hpq hq hw e
  obtain ⟨a, ha⟩ := h.stack p q v w hpq hv hq e.symm ho hw
  rw [hu] at ha
  cases ha

theorem Spec.Mixed.LetThrough.late {env : UEnv V} {m0 : Mem V} {s : UState V} (hi : UInv env m0 s) {x : Act V} {a : Nat}
    (hx : x ∈ s.calls) (h : LetThrough x a) : x.via = some a ∧ x.pc.late = true := by
  rcases h with h | ⟨hv, v, h⟩
  · obtain ⟨c, hc⟩ := List.mem_iff_getElem?.1 hx
    have hcoh := hi.base.coh c x hc
    simp only [Act.Coh, h] at hcoh
    exact ⟨hcoh.1, by rw [h]; rfl⟩
  · exact ⟨hv, by rw [h]; rfl⟩

namespace Props

section
variable (env : UEnv V) (heap : Nat → Cell V) (fns : Nat → StaticFn V) (w : World V) (hf : Fresh heap)
  (sid : Nat) (hr : Ready heap fns w sid)
  (sch : List (USched V)) (s : UState V) (hs : s = (UState.rest heap fns w).run env sch)
  (hfit : s.calls.length ≤ usizeMax)
include hf hr hs hfit

/-- **C87**.  When an expectation of a static method that is in a sequence lets a call through, each expectation of a
static method with an earlier place has had at least the calls that it needs. -/
theorem C87_order (p : Nat) (h : Hit V) (hp : s.world.log[p]? = some h) (through : h.passed = true) (n m : Nat)
    (e e' : Expectation V) (he : StaticMember s sid n e) (hg : h.gid = e.gid) (he' : StaticMember s sid m e')
    (hlt : m < n) : e'.common.times.range.start ≤ recorded e'.gid (s.world.log.take p) := by
  obtain ⟨-, -, hq⟩ := useq_run hf hr sch hs hfit
  rw [recorded_hits]
  exact hq.book.order p h e'.gid _ _ n m hp through (hg ▸ he.rel) he'.rel hlt

/-- **C87**.  Calls that expectations of static methods in one sequence let through come in the order of their
places. -/
theorem C87_sorted (p q : Nat) (h h' : Hit V) (hp : s.world.log[p]? = some h) (hq : s.world.log[q]? = some h')
    (through : h.passed = true) (through' : h'.passed = true) (n m : Nat) (e e' : Expectation V)
    (he : StaticMember s sid n e) (hg : h.gid = e.gid) (he' : StaticMember s sid m e') (hg' : h'.gid = e'.gid)
    (hlt : p < q) : n ≤ m := by
  obtain ⟨-, -, hb⟩ := useq_run hf hr sch hs hfit
  exact hb.book.sorted p q h h' _ _ n m hp hq through through' (hg ▸ he.rel) (hg' ▸ he'.rel) hlt

/-- **C87**.  So if no call to an expectation with `times(k)` was rejected, exactly `k` calls to it were recorded before
any call that a later place let through, and none after. -/
theorem C87_exact (p : Nat) (h : Hit V) (hp : s.world.log[p]? = some h) (through : h.passed = true) (n m k : Nat)
    (e e' : Expectation V) (he : StaticMember s sid n e) (hg : h.gid = e.gid) (he' : StaticMember s sid m e')
    (hlt : m < n) (htimes : e'.common.times.range = ⟨k, k + 1⟩)
    (hnever : ∀ x ∈ s.world.log, x.gid = e'.gid → x.passed = true) (hlen : s.world.log.length < usizeMax) :
    recorded e'.gid (s.world.log.take p) = k ∧
      ∀ (q : Nat) (x : Hit V), p ≤ q → s.world.log[q]? = some x → x.gid ≠ e'.gid := by
  obtain ⟨hi, hb, hq⟩ := useq_run hf hr sch hs hfit
  have hle := C87_order env heap fns w hf sid hr sch s hs hfit p h hp through n m e e' he hg he' hlt
  rw [htimes] at hle
  refine ⟨?_, ?_⟩
  · obtain ⟨f, key, i, hmem⟩ := he'.rel
    have hc := hb.ceil hlen f key i e'.gid e'.common.times (Store.marks_sigs hmem)
    rw [htimes] at hc
    change passes e'.gid s.world.log + _ = 0 ∨ passes e'.gid s.world.log + _ < _ at hc
    rw [recorded_hits] at hle ⊢
    have hsplit : hits e'.gid s.world.log = hits e'.gid (s.world.log.take p) + hits e'.gid (s.world.log.drop p) := by
      unfold hits
      rw [← List.countP_append, List.take_append_drop]
    have hsame : hits e'.gid s.world.log = passes e'.gid s.world.log := by
      unfold hits passes
      apply List.countP_congr
      intro x hx
      constructor
      · intro hh
        simp only [beq_iff_eq] at hh
        simp [hh, hnever x hx hh]
      · intro hh
        simp only [Bool.and_eq_true] at hh
        exact hh.1
    simp only at hle hc
    omega
  · intro q x hpq hx hxg
    have hxp := hnever x (List.mem_of_getElem? hx) hxg
    by_cases e0 : p = q
    · subst e0
      rw [hp] at hx
      cases hx
      obtain ⟨f, key, i, h1⟩ := he.rel
      obtain ⟨f', key', i', h2⟩ := he'.rel
      rw [← hg, hxg] at h1
      have := (hb.same h1 h2).2.2.2.2
      simp only [Option.some.injEq, SeqHandle.mk.injEq, true_and] at this
      omega
    · have := hq.book.sorted p q h x _ _ n m hp hx through hxp (hg ▸ he.rel) (hxg ▸ he'.rel) (by omega)
      omega

/-- **C87**.  A call to a static method whose closure is about to run has been recorded as let through.  So the order
holds when closures run, not only when calls return. -/
theorem C87_entered (i j : Nat) (x : TAct V) (hx : s.ops[i]? = some x) (hpc : x.act.pc = .ret j) (e : Expectation V)
    (he : ((s.fns x.fn).store.vec x.act.op.key)[j]? = some e) : ∃ h ∈ s.world.log, h.gid = e.gid ∧ h.passed = true := by
  obtain ⟨-, -, hq⟩ := useq_run hf hr sch hs hfit
  refine hq.book.ret e.gid ⟨i, x, j, e.common.times, e.common.seqHandle, hx, by rw [hpc]; rfl, ?_⟩
  have : (s.stats.fns x.fn).store.vec x.act.op.key = (s.fns x.fn).store.vec x.act.op.key := rfl
  simp only [Store.marks, this, List.getElem?_map, he, Option.map_some]

/-- **C87**.  When an expectation of a static method lets a call through, each `times(1)` expectation of an object with an
earlier place has passed its call. -/
theorem C87_objects_first (h : Hit V) (hp : h ∈ s.world.log) (through : h.passed = true) (n m a : Nat)
    (e : Expectation V) (he : StaticMember s sid n e) (hg : h.gid = e.gid) (ha : ObjectMember heap sid m a)
    (hlt : m < n) : ∃ x ∈ s.calls, x.via = some a ∧ x.passed = true := by
  obtain ⟨-, -, hq⟩ := useq_run hf hr sch hs hfit
  have := hq.book.began h _ n hp through (hg ▸ he.rel)
  obtain ⟨c, x, hx, h1, h2, -⟩ := hq.objs.passed a m ha (Nat.lt_of_lt_of_le hlt this)
  exact ⟨x, List.mem_of_getElem? hx, h1, h2⟩

/-- **C87**.  When an expectation of an object lets its call through, each expectation of a static method with an earlier
place has had at least the calls that it needs, and each expectation of an object its call. -/
theorem C87_before_object (x : Act V) (hx : x ∈ s.calls) (n m a : Nat) (ha : ObjectMember heap sid n a)
    (through : LetThrough x a) (hlt : m < n) :
    (∀ e', StaticMember s sid m e' → e'.common.times.range.start ≤ recorded e'.gid s.world.log) ∧
    ∀ b, ObjectMember heap sid m b → ∃ y ∈ s.calls, y.via = some b ∧ y.passed = true := by
  obtain ⟨hi, -, hq⟩ := useq_run hf hr sch hs hfit
  obtain ⟨hv, hlate⟩ := through.late hi hx
  obtain ⟨c, hc⟩ := List.mem_iff_getElem?.1 hx
  have hn := hq.objs.late c x a n hc ha hv hlate
  refine ⟨?_, ?_⟩
  · intro e' he'
    rw [recorded_hits]
    exact hq.book.done e'.gid _ m he'.rel (Nat.lt_trans hlt hn)
  · intro b hb
    obtain ⟨d, y, hy, h1, h2, -⟩ := hq.objs.passed b m hb (Nat.lt_trans hlt hn)
    exact ⟨y, List.mem_of_getElem? hy, h1, h2⟩

omit hf hr hs hfit in
/-- Finished places are behind the level. -/
theorem finished_level (hi : UInv env ⟨heap, w.seqs, w.runs⟩ s) (hq : USeq ⟨heap, w.seqs, w.runs⟩ sid s)
    (hlen : s.world.log.length < usizeMax) {n : Nat} (h : ∀ m, m < n → Finished heap s sid m) :
    n ≤ (s.world.seqs sid).level := by
  cases n with
  | zero => exact Nat.zero_le _
  | succ n =>
    rcases h n (Nat.lt_succ_self n) with ⟨a, x, hm, hx, ht⟩ | ⟨e, hm, h0, hc⟩
    · obtain ⟨hv, hlate⟩ := ht.late hi hx
      obtain ⟨c, hc⟩ := List.mem_iff_getElem?.1 hx
      exact hq.objs.late c x a n hc hm hv hlate
    · refine hq.book.reach hlen e.gid _ n hm.rel h0 ?_
      unfold passes
      rw [List.countP_eq_length_filter]
      exact hc

/-- **C87**.  A call that the count check of a `times(k)` expectation of a static method has let through, when all
earlier places have had their calls, passes the check of the sequence. -/
theorem C87_accept (hlen : s.world.log.length < usizeMax) (p i j n k : Nat) (x : TAct V) (e : Expectation V)
    (ho : s.order[p]? = some (Ref.op i)) (hx : s.ops[i]? = some x) (hpc : x.act.pc = .verify j)
    (he : ((s.fns x.fn).store.vec x.act.op.key)[j]? = some e) (hm : e.common.seqHandle = some ⟨sid, n⟩)
    (htimes : e.common.times.range = ⟨k, k + 1⟩) (before : ∀ m, m < n → Finished heap s sid m) (ans : Answer V) :
    (s.step env (.step p ans)).ops[i]? = some { x with act := { x.act with pc := .sat j } } := by
  obtain ⟨hi, hb, hq⟩ := useq_run hf hr sch hs hfit
  have hge := finished_level env heap w sid s hi hq hlen before
  have hmem : StaticMember s sid n e := ⟨⟨x.fn, x.act.op.key, List.mem_of_getElem? he⟩, hm⟩
  have hmark : ((s.stats.fns x.fn).store.marks x.act.op.key)[j]? = some (e.gid, e.common.times, some ⟨sid, n⟩) := by
    have : (s.stats.fns x.fn).store.vec x.act.op.key = (s.fns x.fn).store.vec x.act.op.key := rfl
    simp only [Store.marks, this, List.getElem?_map, he, Option.map_some, hm]
  have hle : (s.world.seqs sid).level ≤ n := by
    apply Nat.le_of_not_lt
    intro hc
    have h1 := hq.book.done e.gid _ n hmem.rel (by omega)
    have h2 := hq.book.ceil hlen e.gid .counted _ _ ⟨i, x, j, _, _, hx, by rw [hpc]; rfl, hmark⟩ (.inl rfl) hmem.rel
    rw [htimes] at h1 h2
    simp only at h1 h2
    omega
  have hlv : n = (s.world.seqs sid).level := by omega
  have hin := hi.innermost (look_op ho hx) (by simp [TAct.finished, SAct.finished, hpc]) (by simp [TAct.user, hpc])
  simp only at hin
  simp only [UState.step, ho, hx, hin, if_true, UState.stepOp, TState.stepAct, hpc, SPc.place]
  have hstep : x.act.step env.stat i ⟨s.stats.fns x.fn, s.stats.world, s.stats.held x.fn, s.stats.acts.map TAct.act⟩ =
      some ⟨s.stats.fns x.fn, s.stats.world, s.stats.held x.fn,
        (s.stats.acts.map TAct.act).set i { x.act with pc := .sat j }⟩ := by
    simp only [SAct.step, hpc, SAct.inner]
    have : (s.stats.fns x.fn).store.vec x.act.op.key = (s.fns x.fn).store.vec x.act.op.key := rfl
    rw [this, he]
    have hw : s.stats.world = s.world := rfl
    simp only [Common.verifySequence, hm, Seqs.verify, hw, hlv, if_true]
  rw [hstep]
  have hlen' : i < s.ops.length := get_lt hx
  simp [UState.stats, hlen']

/-- **C87**.  A call that passed the check of the sequence and is the last one that its expectation needs gives the
sequence on: it is not stopped at this point, even if others use the sequence at the same time. -/
theorem C87_advance (p i j n : Nat) (x : TAct V) (e : Expectation V)
    (ho : s.order[p]? = some (Ref.op i)) (hx : s.ops[i]? = some x) (hpc : x.act.pc = .satisfy j)
    (he : ((s.fns x.fn).store.vec x.act.op.key)[j]? = some e) (hm : e.common.seqHandle = some ⟨sid, n⟩)
    (ans : Answer V) :
    (s.world.seqs sid).level = n ∧ ((s.step env (.step p ans)).world.seqs sid).level = n + 1 ∧
      (s.step env (.step p ans)).ops[i]? = some { x with act := { x.act with pc := .ret j } } := by
  obtain ⟨hi, hb, hq⟩ := useq_run hf hr sch hs hfit
  have hmem : StaticMember s sid n e := ⟨⟨x.fn, x.act.op.key, List.mem_of_getElem? he⟩, hm⟩
  have hmark : ((s.stats.fns x.fn).store.marks x.act.op.key)[j]? = some (e.gid, e.common.times, some ⟨sid, n⟩) := by
    have : (s.stats.fns x.fn).store.vec x.act.op.key = (s.fns x.fn).store.vec x.act.op.key := rfl
    simp only [Store.marks, this, List.getElem?_map, he, Option.map_some, hm]
  have hlv : (s.world.seqs sid).level = n :=
    hq.book.checked e.gid .due _ n ⟨i, x, j, _, _, hx, by rw [hpc]; rfl, hmark⟩ (.inr rfl) hmem.rel
  have hin := hi.innermost (look_op ho hx) (by simp [TAct.finished, SAct.finished, hpc]) (by simp [TAct.user, hpc])
  simp only at hin
  simp only [UState.step, ho, hx, hin, if_true, UState.stepOp, TState.stepAct, hpc, SPc.place]
  have hstep : x.act.step env.stat i ⟨s.stats.fns x.fn, s.stats.world, s.stats.held x.fn, s.stats.acts.map TAct.act⟩ =
      some ⟨s.stats.fns x.fn, ({ s.world with seqs := s.world.seqs.set sid { s.world.seqs sid with level := n + 1 } }).hit
        (env.stat.cx x.act.tid) e.gid x.act.op.args true, s.stats.held x.fn,
        (s.stats.acts.map TAct.act).set i { x.act with pc := .ret j }⟩ := by
    simp only [SAct.step, hpc, SAct.inner]
    have : (s.stats.fns x.fn).store.vec x.act.op.key = (s.fns x.fn).store.vec x.act.op.key := rfl
    rw [this, he]
    have hw : s.stats.world = s.world := rfl
    simp only [Common.satisfySequence, hm, Seqs.satisfy, hw, hlv, if_true]
  rw [hstep]
  have hlen' : i < s.ops.length := get_lt hx
  refine ⟨hlv, ?_, ?_⟩
  · simp [World.hit, Seqs.set]
  · simp [UState.stats, hlen']

/-- **C87**.  The same for a call to a `times(1)` expectation of an object: when all earlier places have had their calls,
those of static methods included, it passes the check of the sequence. -/
theorem C87_accept_object (hlen : s.world.log.length < usizeMax) (p i n a : Nat) (x : Act V)
    (ho : s.order[p]? = some (Ref.call i)) (hx : s.calls[i]? = some x) (hpc : x.pc = .verify a)
    (ha : ObjectMember heap sid n a) (before : ∀ m, m < n → Finished heap s sid m) (ans : Answer V) :
    (s.step env (.step p ans)).calls[i]? = some { x with pc := .loadLow a } := by
  obtain ⟨hi, hb, hq⟩ := useq_run hf hr sch hs hfit
  have hge := finished_level env heap w sid s hi hq hlen before
  have hcoh := hi.base.coh i x hx
  simp only [Act.Coh, hpc] at hcoh
  have hle : (s.world.seqs sid).level ≤ n := by
    apply Nat.le_of_not_lt
    intro hc
    obtain ⟨c, y, hy, h1, h2, h3⟩ := hq.objs.passed a n ha (show n < (s.world.seqs sid).level by omega)
    have := one_passes hi.base (hr.fresh1.one a n ha) (hr.fresh1.zero a n ha) hfit hy hx h1 h2 hcoh.1 hcoh.2
    subst this
    have hxy : y = x := Option.some.inj (hy.symm.trans hx)
    subst hxy
    rw [hpc] at h3
    cases h3
  have hlv : n = (s.world.seqs sid).level := by omega
  have hin := hi.innermost (look_call ho hx) (by simp [Act.finished, hpc]) (by simp [Act.user, hpc])
  simp only at hin
  have hhandle : (s.heap a).exp.common.seqHandle = some ⟨sid, n⟩ := (hi.base.same a).handle.trans ha
  simp only [UState.step, ho, hx, hin, if_true, UState.stepCall]
  have hstep : x.step env.obj i (s.objs.mem.scripted ans) = some ({ x with pc := .loadLow a }, s.objs.mem.scripted ans) := by
    simp only [Act.step, hpc]
    have h1 : ((s.objs.mem.scripted ans).heap a).exp.common.seqHandle = some ⟨sid, n⟩ := hhandle
    have h2 : (s.objs.mem.scripted ans).seqs = s.world.seqs := rfl
    simp only [Common.verifySequence, h1, Seqs.verify, h2, hlv, if_true]
  rw [hstep]
  simp [get_lt hx]

end

end Props

end Mockall
