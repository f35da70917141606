import Verif.Rt.Prelude

/-! # Call counts: `TimesRange` and `Times` (L:1512-1667) -/

namespace Mockall

/-- `TimesRange(Range<usize>)`, L:1514-1516: a half open interval `start..end_`. -/
structure TimesRange where
  start : Nat
  end_ : Nat
  deriving DecidableEq, Repr

/-- `impl Default for TimesRange`, L:1518-1523. -/
def TimesRange.dflt : TimesRange := ⟨0, usizeMax⟩

/-- The argument of `.times(..)`: one constructor per `From` impl of L:1525-1567. -/
inductive TimesArg
  | n (n : Nat)
  | range (start end_ : Nat)
  | rangeFrom (start : Nat)
  | rangeFull
  | rangeInclusive (start end_ : Nat)
  | rangeTo (end_ : Nat)
  | rangeToInclusive (end_ : Nat)
  deriving DecidableEq, Repr

/-- `Into<TimesRange>`, L:1525-1567, one arm per impl. -/
def TimesRange.from : TimesArg → Except Panic TimesRange
  -- L:1525-1529 `TimesRange(n..(n+1))`
  | .n n => do
    let e ← addOne n
    return ⟨n, e⟩
  -- L:1531-1536
  | .range s e => if e > s then .ok ⟨s, e⟩ else .error .backwardsRange
  -- L:1538-1542
  | .rangeFrom s => .ok ⟨s, usizeMax⟩
  -- L:1544-1548
  | .rangeFull => .ok ⟨0, usizeMax⟩
  -- L:1550-1555
  | .rangeInclusive s e =>
    if e ≥ s then do
      let e' ← addOne e
      return ⟨s, e'⟩
    else .error .backwardsRange
  -- L:1557-1561 (no check: `..0` is accepted)
  | .rangeTo e => .ok ⟨0, e⟩
  -- L:1563-1567
  | .rangeToInclusive e => do
    let e' ← addOne e
    return ⟨0, e'⟩

/-- `ExpectedCalls`, L:1569-1575. -/
inductive ExpectedCalls
  | satisfied | tooMany | tooFew
  deriving DecidableEq, Repr

/-- `Times`, L:1577-1583. -/
structure Times where
  count : Nat
  range : TimesRange
  deriving DecidableEq, Repr

/-- `#[derive(Default)]` of `Times`, L:1577. -/
def Times.dflt : Times := ⟨0, TimesRange.dflt⟩

/-- `Times::call`, L:1587-1602.  The outer `Except` is a panic (overflow of the `+ 1`), the inner
one the returned `Result`.  The counter is bumped in every case. -/
def Times.call (t : Times) : Except Panic (Except CallErr Unit) × Times :=
  let t' := { t with count := atomicInc t.count }
  let r : Except Panic (Except CallErr Unit) :=
    match addOne t.count with
    | .error p => .error p
    | .ok count =>
      if count ≥ t.range.end_ then
        if t.range.end_ = 1 then .ok (.error .shouldNot)
        else match subOne t.range.end_ with
          | .error p => .error p
          | .ok m => .ok (.error (.tooMany count m))
      else .ok (.ok ())
  (r, t')

/-- `Times::is_done`, L:1613-1617: `count >= end - 1`. -/
def Times.isDone (t : Times) : Except Panic Bool :=
  match subOne t.range.end_ with
  | .error p => .error p
  | .ok m => .ok (decide (t.count ≥ m))

/-- `Times::is_exact`, L:1619-1623.  `end - start` cannot underflow: see `TimesRange.from_le`. -/
def Times.isExact (t : Times) : Bool := decide (t.range.end_ - t.range.start = 1)

/-- `Times::is_satisfied`, L:1625-1637. -/
def Times.isSatisfied (t : Times) : ExpectedCalls :=
  let lower := decide (t.count ≥ t.range.start)
  let upper := decide (t.count < t.range.end_)
  if lower && upper then .satisfied
  else if lower then .tooMany
  else .tooFew

/-- `Times::maximum`, L:1639-1642. -/
def Times.maximum (t : Times) : Except Panic Nat := subOne t.range.end_

/-- `Times::minimum`, L:1644-1647. -/
def Times.minimum (t : Times) : Nat := t.range.start

/-- `Times::never`, L:1655-1657. -/
def Times.never (t : Times) : Times := { t with range := ⟨0, 1⟩ }

/-- `Times::times`, L:1664-1666.  A panic of `into()` leaves `self` unchanged. -/
def Times.times (t : Times) (a : TimesArg) : Except Panic Unit × Times :=
  match TimesRange.from a with
  | .error p => (.error p, t)
  | .ok r => (.ok (), { t with range := r })

end Mockall
