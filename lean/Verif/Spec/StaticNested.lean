import Verif.Conc.StaticNested

/-! # Waiting, for static methods used by user code -/

namespace Mockall.Spec

variable {V : Type}

/-- Everything that can happen from a state in which nobody uses the methods. -/
def Reached (env : Env V) (s : TState V) : Prop := ∃ fns w sch, s = (TState.rest fns w).run env sch

/-- This operation has not acquired the mutex of its method. -/
def Outside (x : TAct V) : Prop := x.act.pc = .clear ∨ x.act.pc = .wait ∨ x.act.pc = .tryWait

/-- Operation `i` waits for operation `j`: `j` holds the mutex that `i` needs, or `j` was begun by the user code
that `i` is executing. -/
inductive Waits (s : TState V) (i j : Nat) : Prop
  | lock (x : TAct V) (hx : s.acts[i]? = some x) (out : Outside x) (held : s.held x.fn = some j)
  | inner (x y : TAct V) (hx : s.acts[i]? = some x) (hy : s.acts[j]? = some y) (lt : i < j)
      (thread : x.act.tid = y.act.tid) (fx : x.finished = false) (fy : y.finished = false)

/-- Operation number `i` was begun and is not over. -/
def Pending (s : TState V) (i : Nat) : Prop := ∃ x, s.acts[i]? = some x ∧ x.finished = false

/-- Operation number `i` can make a step, whatever user code comes to. -/
def Moves (env : Env V) (s : TState V) (i : Nat) : Prop := ∀ ans, s.step env (.step i ans) ≠ s

/-- User code of a method only begins operations on methods of lower rank. -/
def Descends (rank : Nat → Nat) (s : TState V) : Prop :=
  ∀ (i j : Nat) (x y : TAct V), i < j → s.acts[i]? = some x → s.acts[j]? = some y → x.act.tid = y.act.tid →
    x.finished = false → y.finished = false → rank y.fn < rank x.fn

/-- The operations in `ids` make a step each, in this order; `ans` says what user code comes to. -/
def follow (env : Env V) (ans : TState V → Nat → Answer V) (ids : List Nat) (s : TState V) : TState V :=
  ids.foldl (fun s id => s.step env (.step id (ans s id))) s

/-- The state after `n` steps chosen by `pick`. -/
def after (env : Env V) (pick : Nat → Nat × Answer V) (s : TState V) : Nat → TState V
  | 0 => s
  | n + 1 => (after env pick s n).step env (.step (pick n).1 (pick n).2)

end Mockall.Spec
