import Verif.Rt.Times

/-! # Specification of call-count arguments

Independent of the code: which call counts a `times` argument spells, by Rust's range notation. -/

namespace Mockall.Spec

/-- `k` is one of the call counts spelled by the argument of `.times(..)`
(membership in the Rust range; a plain number spells exactly itself). -/
def permits : TimesArg → Nat → Prop
  | .n n, k => k = n
  | .range a b, k => a ≤ k ∧ k < b
  | .rangeFrom a, k => a ≤ k
  | .rangeFull, _ => True
  | .rangeInclusive a b, k => a ≤ k ∧ k ≤ b
  | .rangeTo b, k => k < b
  | .rangeToInclusive b, k => k ≤ b

/-- All numbers of the argument fit in a `usize`. -/
def inUsize : TimesArg → Prop
  | .n n => n ≤ usizeMax
  | .range a b => a ≤ usizeMax ∧ b ≤ usizeMax
  | .rangeFrom a => a ≤ usizeMax
  | .rangeFull => True
  | .rangeInclusive a b => a ≤ usizeMax ∧ b ≤ usizeMax
  | .rangeTo b => b ≤ usizeMax
  | .rangeToInclusive b => b ≤ usizeMax

/-- The argument neither spells the empty set nor has an (inclusive) bound of `usize::MAX`.
`a..b` may have `b = usize::MAX`. -/
def Tame : TimesArg → Prop
  | .n n => n < usizeMax
  | .range a b => a < b ∧ b ≤ usizeMax
  | .rangeFrom a => a < usizeMax
  | .rangeFull => True
  | .rangeInclusive a b => a ≤ b ∧ b < usizeMax
  | .rangeTo b => 0 < b ∧ b ≤ usizeMax
  | .rangeToInclusive b => b < usizeMax

instance : DecidablePred Tame := fun a => by cases a <;> unfold Tame <;> infer_instance
instance (a : TimesArg) : DecidablePred (permits a) :=
  fun k => by cases a <;> unfold permits <;> infer_instance

/-- Smallest and largest permitted count; unbounded arguments are capped at `usize::MAX - 1`
("though it's not entirely correct, we treat usize::MAX as approximately infinity", L:1512). -/
def window : TimesArg → Nat × Nat
  | .n n => (n, n)
  | .range a b => (a, b - 1)
  | .rangeFrom a => (a, usizeMax - 1)
  | .rangeFull => (0, usizeMax - 1)
  | .rangeInclusive a b => (a, b)
  | .rangeTo b => (0, b - 1)
  | .rangeToInclusive b => (0, b)

/-- `window` is the convex hull of `permits` among counts a `usize` can hold. -/
theorem window_permits (a : TimesArg) (h : Tame a) (k : Nat) (hk : k < usizeMax) :
    permits a k ↔ (window a).1 ≤ k ∧ k ≤ (window a).2 := by
  cases a <;> simp only [permits, window, Tame, usizeMax, true_iff] at * <;> omega

end Mockall.Spec
