import Verif.Rt.Prelude

/-! # Sequences (L:1681-1785)

All `Sequence` objects of a program live in a heap indexed by a number (the identity of the shared
`Arc<SeqInner>`).  A `SeqState` holds both the shared `satisfaction_level` of `SeqInner` and the
`next_seq` of the (unique) `Sequence` value owning it.

Simplification: `satisfaction_level` and `next_seq` are unbounded `Nat`s; overflowing them needs
2^64 expectations. -/

namespace Mockall

/-- `SeqInner` (L:1699-1702) together with the `next_seq` of its `Sequence` (L:1765-1769). -/
structure SeqState where
  level : Nat
  next : Nat
  deriving DecidableEq, Repr

/-- `Sequence::new`, L:1771-1775. -/
def SeqState.new : SeqState := ⟨0, 0⟩

/-- `SeqHandle`, L:1681-1685: which sequence, and the position in it. -/
structure SeqHandle where
  sid : Nat
  seq : Nat
  deriving DecidableEq, Repr

/-- The heap of sequences. -/
abbrev Seqs := Nat → SeqState

/-- Functional update. -/
def Seqs.set (w : Seqs) (i : Nat) (s : SeqState) : Seqs := fun j => if j = i then s else w j

/-- `Sequence::next_handle`, L:1780-1784. -/
def Seqs.nextHandle (w : Seqs) (sid : Nat) : SeqHandle × Seqs :=
  (⟨sid, (w sid).next⟩, w.set sid { w sid with next := (w sid).next + 1 })

/-- `SeqHandle::satisfy` (L:1688-1691) = `SeqInner::satisfy` (L:1705-1709).  The level is bumped
even when the assertion fails. -/
def Seqs.satisfy (w : Seqs) (h : SeqHandle) : Except Panic Unit × Seqs :=
  let old := (w h.sid).level
  let w' := w.set h.sid { w h.sid with level := old + 1 }
  if old = h.seq then (.ok (), w') else (.error .seqResatisfied, w')

/-- `SeqHandle::verify` (L:1693-1696) = `SeqInner::verify` (L:1711-1715). -/
def Seqs.verify (w : Seqs) (h : SeqHandle) (desc : String) : Except Panic Unit :=
  if h.seq = (w h.sid).level then .ok () else .error (.seqViolation desc)

end Mockall
