import Verif.Conc.Mixed

/-! # Waiting, for objects and static methods used together -/

namespace Mockall.Spec.Mixed

variable {V : Type}

/-- Before anything was called: no lock is held, and counts are `usize` values. -/
def Fresh (heap : Nat → Cell V) : Prop :=
  ∀ a, (heap a).mheld = none ∧ (heap a).rheld = none ∧ (heap a).exp.common.times.count ≤ usizeMax

/-- Everything that can happen from a state in which nobody uses the mocks. -/
def Reached (env : UEnv V) (s : UState V) : Prop :=
  ∃ heap fns w sch, Fresh heap ∧ s = (UState.rest heap fns w).run env sch

/-- The operation that was begun as number `p`. -/
def look (s : UState V) (p : Nat) : Option View := s.order[p]?.bind s.view

/-- Number `p` was begun and is not over. -/
def Pending (s : UState V) (p : Nat) : Prop := ∃ v, look s p = some v ∧ v.over = false

/-- This call needs the lock of the matcher of expectation `a` next: to evaluate it, or to print it in a message. -/
def WantsMatcher (x : Act V) (a : Nat) : Prop :=
  (∃ rest, x.pc = .scan (a :: rest)) ∨ (∃ e, x.pc = .callFail a e) ∨ (∃ e, x.pc = .runFail a e) ∨
    ∃ e, x.pc = .refFail a e

/-- This call needs the lock of the return closure of expectation `a` next. -/
def WantsClosure (x : Act V) (a : Nat) : Prop := x.pc = .ret a

/-- This operation has not acquired the mutex of its static method. -/
def Outside (x : TAct V) : Prop := x.act.pc = .clear ∨ x.act.pc = .wait ∨ x.act.pc = .tryWait

/-- Number `p` waits for number `q`: `q` holds a lock that `p` needs, or `q` was begun by the user code that `p` is
executing. -/
inductive Waits (s : UState V) (p q : Nat) : Prop
  | matcher (i j a : Nat) (x : Act V) (hp : s.order[p]? = some (.call i)) (hx : s.calls[i]? = some x)
      (wants : WantsMatcher x a) (held : (s.heap a).mheld = some j) (hq : s.order[q]? = some (.call j))
  | closure (i j a : Nat) (x : Act V) (hp : s.order[p]? = some (.call i)) (hx : s.calls[i]? = some x)
      (wants : WantsClosure x a) (held : (s.heap a).rheld = some j) (hq : s.order[q]? = some (.call j))
  | mutex (i j : Nat) (x : TAct V) (hp : s.order[p]? = some (.op i)) (hx : s.ops[i]? = some x) (out : Outside x)
      (held : s.held x.fn = some j) (hq : s.order[q]? = some (.op j))
  | inner (v w : View) (hp : look s p = some v) (hq : look s q = some w) (lt : p < q) (thread : v.tid = w.tid)
      (fp : v.over = false) (fq : w.over = false)

/-- Number `p` can make a step, whatever user code comes to. -/
def Moves (env : UEnv V) (s : UState V) (p : Nat) : Prop := ∀ ans, s.step env (.step p ans) ≠ s

/-- Number `p` is executing user code. -/
def InUser (s : UState V) (p : Nat) : Prop := ∃ v a, look s p = some v ∧ v.user = some a

/-- What the next step of number `p` does depends on what user code comes to. -/
def Asks (env : UEnv V) (s : UState V) (p : Nat) : Prop :=
  ∃ ans ans', s.step env (.step p ans) ≠ s.step env (.step p ans')

/-- What the thread of number `p` began later is over. -/
def Innermost (s : UState V) (p : Nat) : Prop :=
  ∀ q v w, p < q → look s p = some v → look s q = some w → v.tid = w.tid → w.over = true

/-- What an operation may need locks of: a call those of the expectations of its method, an operation on a static
method that of this method. -/
inductive Needs (env : UEnv V) (s : UState V) : Ref → Res → Prop
  | call (i b : Nat) (x : Act V) (hx : s.calls[i]? = some x) (hb : b ∈ env.vec x.meth) : Needs env s (.call i) (.exp b)
  | op (i : Nat) (x : TAct V) (hx : s.ops[i]? = some x) : Needs env s (.op i) (.fn x.fn)

/-- User code of an expectation or of a static method only begins operations that need what has lower rank. -/
def Descends (env : UEnv V) (rank : Res → Nat) (s : UState V) : Prop :=
  ∀ (p q : Nat) (v w : View) (r : Ref) (a b : Res), p < q → look s p = some v → look s q = some w → v.tid = w.tid →
    v.over = false → w.over = false → v.user = some a → s.order[q]? = some r → Needs env s r b → rank b < rank a

/-- The operations in `ps` make a step each, in this order; `ans` says what user code comes to. -/
def follow (env : UEnv V) (ans : UState V → Nat → Answer V) (ps : List Nat) (s : UState V) : UState V :=
  ps.foldl (fun s p => s.step env (.step p (ans s p))) s

/-- The state after `n` steps chosen by `pick`. -/
def after (env : UEnv V) (pick : Nat → Nat × Answer V) (s : UState V) : Nat → UState V
  | 0 => s
  | n + 1 => (after env pick s n).step env (.step (pick n).1 (pick n).2)

end Mockall.Spec.Mixed
