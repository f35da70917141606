import Verif.Spec.Mixed

/-! # Sequences that span objects and static methods -/

namespace Mockall.Spec.Mixed

variable {V : Type}

/-- Expectation `a` of an object has place `n` in sequence `sid`. -/
def ObjectMember (heap : Nat → Cell V) (sid n a : Nat) : Prop := (heap a).exp.common.seqHandle = some ⟨sid, n⟩

/-- Expectation `e` of a static method has place `n` in sequence `sid`. -/
def StaticMember (s : UState V) (sid n : Nat) (e : Expectation V) : Prop :=
  (∃ f k, e ∈ (s.fns f).store.vec k) ∧ e.common.seqHandle = some ⟨sid, n⟩

/-- Do these keys reach the same expectations of a static method?  Methods that are not generic ignore keys. -/
def SameKey (st : Store V) (k k' : Key) : Prop := match st with | .concrete _ => True | .generic _ => k = k'

/-- Before anything is called: nothing was recorded, expectations of static methods were not called and have ghost
numbers of their own.  The sequence has begun nowhere.  The expectations of objects in it are `times(1)` and were never
called.  All expectations in it, of objects and of static methods, have places of their own among those that were given
out. -/
structure Ready (heap : Nat → Cell V) (fns : Nat → StaticFn V) (w : World V) (sid : Nat) : Prop where
  log : w.log = []
  uncalled : ∀ f k, ∀ e ∈ (fns f).store.vec k, e.common.times.count = 0 ∧ e.gid < w.fresh
  numbers : ∀ (f f' : Nat) (k k' : Key) (i i' : Nat) (e e' : Expectation V), ((fns f).store.vec k)[i]? = some e →
    ((fns f').store.vec k')[i']? = some e' → e.gid = e'.gid → f = f' ∧ i = i' ∧ SameKey (fns f).store k k'
  level : (w.seqs sid).level = 0
  one : ∀ n a, ObjectMember heap sid n a → (heap a).exp.common.times.range = ⟨1, 2⟩
  zero : ∀ n a, ObjectMember heap sid n a → (heap a).exp.common.times.count = 0
  objects : ∀ n a b, ObjectMember heap sid n a → ObjectMember heap sid n b → a = b
  statics : ∀ n e e', StaticMember (UState.rest heap fns w) sid n e → StaticMember (UState.rest heap fns w) sid n e' →
    e.gid = e'.gid
  apart : ∀ n a e, ObjectMember heap sid n a → ¬ StaticMember (UState.rest heap fns w) sid n e
  given : ∀ n, (∃ a, ObjectMember heap sid n a) ∨ (∃ e, StaticMember (UState.rest heap fns w) sid n e) →
    n < (w.seqs sid).next

/-- How many calls to the expectation with this ghost number are in this record. -/
def recorded (gid : Nat) (log : List (Hit V)) : Nat := (log.filter fun h => h.gid == gid).length

/-- This call to expectation `a` of an object has been let through: it executes the closure, or has returned. -/
def LetThrough (x : Act V) (a : Nat) : Prop := x.pc = .run a ∨ (x.via = some a ∧ ∃ v, x.pc = .done (.ok v))

/-- Place `n` has had its calls: a `times(1)` expectation of an object has let one through, or an expectation of a static
method has let through as many as it needs. -/
inductive Finished (heap : Nat → Cell V) (s : UState V) (sid n : Nat) : Prop
  | object (a : Nat) (x : Act V) (hm : ObjectMember heap sid n a) (hx : x ∈ s.calls) (h : LetThrough x a)
  | static (e : Expectation V) (hm : StaticMember s sid n e) (some : 0 < e.common.times.range.start)
      (h : e.common.times.range.start ≤ (s.world.log.filter fun h => h.gid == e.gid && h.passed).length)

end Mockall.Spec.Mixed
