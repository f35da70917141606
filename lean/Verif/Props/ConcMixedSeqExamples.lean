import Verif.Props.ConcMixedSeq
import Verif.Props.ConcMixedExamples

/-! # Sequences that span objects and static methods (C87): examples -/

namespace Mockall

open Spec.Mixed Props StaticNestedExamples

namespace MixedSeqExamples

set_option maxRecDepth 16000

/-- One thread sets up: `times(2)` and `in_sequence` for static method 0. -/
def firstFn : Except Panic Unit × StaticFn Nat × World Nat :=
  (StaticFn.new fooInfo).expect false 0 [.times (.n 2), .inSequence 0, .returnConst 5] startWorld

/-- Then `once` and `in_sequence`, the same sequence, for the method of an object. -/
def oneFn : List (List (List (Build Nat))) := [[[.once, .inSequence 0, .returnConst 6]]]

/-- The object with its expectation, and the world after that. -/
def thenObject : List (List (Expectation Nat)) × World Nat := demoSetup oneFn 0 firstFn.2.2

/-- The memory of the object. -/
def heap : Nat → Cell Nat :=
  fun a => ⟨thenObject.1.flatten.getD a (Expectation.new false (demoInfo 0) 0), none, none⟩

/-- Static method 0 has its expectation, the others none. -/
def fns : Nat → StaticFn Nat
  | 0 => firstFn.2.1
  | _ + 1 => StaticFn.new fooInfo

/-- The code around. -/
def env : UEnv Nat := ⟨(demoEnv oneFn).vec, (demoEnv oneFn).info, false, toString, id⟩

theorem fresh : Fresh heap := by
  intro a
  refine ⟨rfl, rfl, ?_⟩
  match a with
  | 0 => exact Nat.zero_le _
  | _ + 1 => exact Nat.zero_le _

theorem object_place {sid n a : Nat} (h : ObjectMember heap sid n a) : sid = 0 ∧ n = 1 ∧ a = 0 := by
  match a, h with
  | 0, h =>
    have h' : some (⟨0, 1⟩ : SeqHandle) = some ⟨sid, n⟩ := h
    cases h'
    exact ⟨rfl, rfl, rfl⟩
  | _ + 1, h => exact nomatch (h : (none : Option SeqHandle) = some ⟨sid, n⟩)

theorem static_vec (f : Nat) (k : Key) : (fns f).store.vec k = [] ∨
    ∃ e : Expectation Nat, f = 0 ∧ (fns f).store.vec k = [e] ∧ e.gid = 0 ∧ e.common.times.count = 0 ∧
      e.common.seqHandle = some ⟨0, 0⟩ :=
  match f with
  | 0 => .inr ⟨_, rfl, rfl, rfl, rfl, rfl⟩
  | _ + 1 => .inl rfl

theorem static_place {sid n : Nat} {e : Expectation Nat}
    (h : StaticMember (UState.rest heap fns thenObject.2) sid n e) : sid = 0 ∧ n = 0 ∧ e.gid = 0 := by
  obtain ⟨⟨f, k, hm⟩, hh⟩ := h
  have hm' : e ∈ (fns f).store.vec k := hm
  rcases static_vec f k with h0 | ⟨e', -, h1, h2, h3, h4⟩
  · rw [h0] at hm'; cases hm'
  · rw [h1, List.mem_singleton] at hm'
    subst hm'
    rw [h4] at hh
    cases hh
    exact ⟨rfl, rfl, h2⟩

/-- The setup meets the hypotheses of C87. -/
theorem ready : Ready heap fns thenObject.2 0 where
  log := rfl
  uncalled f k e he := by
    rcases static_vec f k with h0 | ⟨e', -, h1, h2, h3, h4⟩
    · rw [h0] at he; cases he
    · rw [h1, List.mem_singleton] at he
      subst he
      exact ⟨h3, by rw [h2]; exact Nat.lt_of_lt_of_eq (Nat.zero_lt_succ 1) (by rfl)⟩
  numbers f f' k k' i i' e e' he he' _ := by
    match f, f', i, i', he, he' with
    | 0, 0, 0, 0, _, _ => exact ⟨rfl, rfl, trivial⟩
  level := rfl
  one n a h := by
    obtain ⟨-, -, rfl⟩ := object_place h
    rfl
  zero n a h := by
    obtain ⟨-, -, rfl⟩ := object_place h
    rfl
  objects n a b h h' := (object_place h).2.2.trans (object_place h').2.2.symm
  statics n e e' h h' := (static_place h).2.2.trans (static_place h').2.2.symm
  apart n a e h h' := absurd ((object_place h).2.1.symm.trans (static_place h').2.1) (by decide)
  given n h := by
    rcases h with ⟨a, h⟩ | ⟨e, h⟩
    · obtain ⟨-, rfl, -⟩ := object_place h
      decide +kernel
    · obtain ⟨-, rfl, -⟩ := static_place h
      decide +kernel

/-- The state after a schedule. -/
def seqAfter (sch : List (USched Nat)) : UState Nat := (UState.rest heap fns thenObject.2).run env sch

/-- Number `p` makes `n` steps. -/
def moves (p n : Nat) : List (USched Nat) := List.replicate n (.step p five)

/-- Thread 1 adds an expectation to static method 1, with the next place in the sequence (number 0).  Threads 1 and 2
call static method 0 at the same time (numbers 1 and 2): 2 waits for the lock until 1 has returned. -/
def twice : List (USched Nat) :=
  .op 1 1 (.expect 0 [.times (.n 1), .inSequence 0, .returnConst 7]) :: moves 0 9 ++
    .op 1 0 (.call 0 [3]) :: .op 2 0 (.call 0 [4]) :: moves 1 4 ++ moves 2 3 ++ moves 1 8 ++ moves 2 12

/-- Then thread 1 calls the object (number 3). -/
def thenOnce : List (USched Nat) := twice ++ .call 0 1 [] :: moves 3 14

/-- Then thread 2 calls static method 1 (number 4). -/
def thenLast : List (USched Nat) := thenOnce ++ .op 2 1 (.call 0 [1]) :: moves 4 12

/-- The hits, in short: which expectation, let through? -/
def brief (s : UState Nat) : List (Nat × Bool) := s.world.log.map fun h => (h.gid, h.passed)

/-- The members of the sequence after this: static method 0 has place 0, static method 1 place 2 (the object has 1). -/
theorem members : ∃ e e', StaticMember (seqAfter thenLast) 0 0 e ∧ e.gid = 0 ∧ e.common.times.range = ⟨2, 3⟩ ∧
    StaticMember (seqAfter thenLast) 0 2 e' ∧ e'.gid = 2 :=
  ⟨_, _, ⟨⟨0, 0, List.mem_singleton_self _⟩, rfl⟩, rfl, rfl, ⟨⟨1, 0, List.mem_singleton_self _⟩, rfl⟩, rfl⟩

/-- What was recorded, how far the sequence was after each part, and what the call to the object got (user code
answers 5). -/
theorem brief_last : brief (seqAfter thenLast) = [(0, true), (0, true), (2, true)] ∧
    (seqAfter thenLast).calls.length = 1 ∧ ((seqAfter twice).world.seqs 0).level = 1 ∧
    ((seqAfter thenOnce).world.seqs 0).level = 2 ∧ ((seqAfter thenLast).world.seqs 0).level = 3 ∧
    (seqAfter thenLast).objs.outcomes = [some (.ok 5)] := by
  refine ⟨?_, ?_, ?_, ?_, ?_, ?_⟩ <;> rfl

/-- All that was recorded was let through. -/
theorem all_passed {l : List (Hit Nat)} (h : (l.map fun h => (h.gid, h.passed)) = [(0, true), (0, true), (2, true)]) :
    (∀ x ∈ l, x.passed = true) ∧ l.length = 3 ∧ ∃ x, l[2]? = some x ∧ x.gid = 2 ∧ x.passed = true := by
  have hlen : l.length = 3 := by
    have := congrArg List.length h
    rwa [List.length_map] at this
  match l, hlen, h with
  | [a, b, c], _, h =>
    simp only [List.map_cons, List.map_nil, List.cons.injEq, Prod.mk.injEq, and_true] at h
    obtain ⟨⟨_, h1⟩, ⟨_, h2⟩, h3, h4⟩ := h
    refine ⟨?_, rfl, c, rfl, h3, h4⟩
    intro x hx
    simp only [List.mem_cons, List.not_mem_nil, or_false] at hx
    rcases hx with rfl | rfl | rfl <;> assumption

/-- C87_order, C87_sorted, C87_exact, C87_entered and C87_objects_first: the third hit was let through by place 2, and so
comes after exactly 2 calls of place 0, and after the call to the object. -/
example : (∃ e', StaticMember (seqAfter thenLast) 0 0 e' ∧
      recorded e'.gid ((seqAfter thenLast).world.log.take 2) = 2) ∧
    ∃ x ∈ (seqAfter thenLast).calls, x.via = some 0 ∧ x.passed = true := by
  obtain ⟨e, e', h1, h2, h3, h4, h5⟩ := members
  obtain ⟨hall, hlen, h, hp, hg, ht⟩ := all_passed brief_last.1
  have hfit := brief_last.2.1
  have hmax : 3 < usizeMax := by decide +kernel
  have hs : seqAfter thenLast = (UState.rest heap fns thenObject.2).run env thenLast := rfl
  generalize seqAfter thenLast = s at *
  refine ⟨⟨e, h1, ?_⟩, ?_⟩
  · exact (C87_exact env heap fns thenObject.2 fresh 0 ready thenLast s hs (by omega) 2 h hp ht 2 0 2 e' e h4
      (hg.trans h5.symm) h1 (by decide) h3 (fun x hx _ => hall x hx) (by omega)).1
  · exact C87_objects_first env heap fns thenObject.2 fresh 0 ready thenLast s hs (by omega) h
      (List.mem_of_getElem? hp) ht 2 1 0 e' h4 (hg.trans h5.symm) rfl (by decide)

/-- C87_before_object: the call to the object has been let through by place 1, and place 0 has had its 2 calls. -/
example : ∃ x ∈ (seqAfter thenOnce).calls, LetThrough x 0 ∧ ObjectMember heap 0 1 0 ∧
    recorded 0 (seqAfter thenOnce).world.log = 2 :=
  ⟨_, List.mem_singleton_self _, .inr ⟨rfl, _, rfl⟩, rfl, rfl⟩

/-- C87_accept: place 2 is about to be checked, and places 0 and 1 have had their calls. -/
example : let s := seqAfter (thenOnce ++ .op 2 1 (.call 0 [1]) :: moves 4 4)
    s.order[4]? = some (Ref.op 3) ∧ (s.ops[3]?.map fun x => x.act.pc) = some (.verify 0) ∧
    ∀ m, m < 2 → Finished heap s 0 m := by
  refine ⟨rfl, rfl, ?_⟩
  intro m hm
  match m, hm with
  | 0, _ => exact .static _ ⟨⟨0, 0, List.mem_singleton_self _⟩, rfl⟩ (by decide +kernel) (by decide +kernel)
  | 1, _ => exact .object 0 _ rfl (List.mem_singleton_self _) (.inr ⟨rfl, _, rfl⟩)

/-- C87_advance: two steps later the sequence is given on. -/
example : let s := seqAfter (thenOnce ++ .op 2 1 (.call 0 [1]) :: moves 4 6)
    s.order[4]? = some (Ref.op 3) ∧ (s.ops[3]?.map fun x => x.act.pc) = some (.satisfy 0) :=
  ⟨rfl, rfl⟩

/-- C87_accept_object: the call to the object is about to be checked, and static method 0 has had its calls. -/
example : let s := seqAfter (twice ++ .call 0 1 [] :: moves 3 4)
    s.order[3]? = some (Ref.call 0) ∧ (s.calls[0]?.map fun x => x.pc) = some (.verify 0) ∧
    ∀ m, m < 1 → Finished heap s 0 m := by
  refine ⟨rfl, rfl, ?_⟩
  intro m hm
  match m, hm with
  | 0, _ => exact .static _ ⟨⟨0, 0, List.mem_singleton_self _⟩, rfl⟩ (by decide +kernel) (by decide +kernel)

/-- The order can be violated: a call to the object comes too early. -/
example : (seqAfter (.call 0 1 [] :: moves 0 14)).objs.outcomes = [some (.error (.seqViolation "MockFoo::f0()"))] := by
  rfl

end MixedSeqExamples

end Mockall
