import Verif.Spec.Builders

/-! # Specification of sequences

What a `Sequence` means to the user, as an automaton that reads only the calls aimed at the members of
that one sequence.  Expectations are named by the order of their creation; `made[g]` lists the builder
calls made on expectation `g`. -/

namespace Mockall.Spec

variable {V : Type}

/-- A call `in_sequence(&mut sid)`. -/
def joins (sid : Nat) : Build V → Bool
  | .inSequence s => s == sid
  | _ => false

/-- Number of `in_sequence` calls on a sequence. -/
def joinCount (sid : Nat) (made : List (List (Build V))) : Nat :=
  (made.map fun c => c.countP (joins sid)).sum

/-- The position of expectation `g` in the sequence: how many `in_sequence` calls on that sequence came
before its own last one.  `none` if `g` is not in the sequence. -/
def slot (made : List (List (Build V))) (sid g : Nat) : Option Nat :=
  match made[g]? with
  | some c =>
    if lastOf sequenceOf none c = some sid then some (joinCount sid (made.take (g + 1)) - 1) else none
  | none => none

/-- The half open count window of expectation `g`. -/
def countWin (made : List (List (Build V))) (g : Nat) : TimesRange :=
  halfOpen (countArg ((made[g]?).getD []))

/-- How far a sequence is. -/
structure SeqSt where
  /-- the position whose turn it is -/
  level : Nat
  /-- the calls aimed at members so far -/
  seen : List Nat
  /-- which of them were accepted -/
  flags : List Bool
  deriving DecidableEq, Repr

/-- A call aimed at member `g`, its `n`-th: accepted iff it is `g`'s turn and `g` has not used up its
calls; the turn ends with the call that reaches the required number. -/
def SeqSt.next (pos : Nat → Option Nat) (win : Nat → TimesRange) (s : SeqSt) (g : Nat) : SeqSt :=
  let n := s.seen.count g + 1
  let ok := pos g == some s.level && decide (n < (win g).end_)
  { level := if ok && decide ((win g).start ≤ n) then s.level + 1 else s.level
    seen := s.seen ++ [g]
    flags := s.flags ++ [ok] }

/-- A series of calls aimed at members. -/
def SeqSt.run (pos : Nat → Option Nat) (win : Nat → TimesRange) (gs : List Nat) : SeqSt :=
  gs.foldl (SeqSt.next pos win) ⟨0, [], []⟩

end Mockall.Spec
