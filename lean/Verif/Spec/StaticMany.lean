import Verif.Conc.StaticMany

/-! # What concurrent operations on several static methods amount to -/

namespace Mockall.Spec.Many

variable {V : Type}

/-- What threads do here: call static methods, add expectations, checkpoint, and drop a `Context` while not
panicking. -/
def Allowed : ManySched V → Prop
  | .start _ _ .dropPanicking => False
  | _ => True

/-- The operation is an `expect` whose statement has an `in_sequence` for this sequence. -/
def Joining (x : TAct V) (sid : Nat) : Prop := ∃ k bs, x.act.op = .expect k bs ∧ .inSequence sid ∈ bs

/-- No two statements that are being executed add to the same sequence.  `in_sequence` borrows the `Sequence`
mutably (F:1294-1300), so this is what the borrow checker asks for, unless each `in_sequence` of a statement locks
and releases a mutex of the user. -/
def Exclusive (s : ManyState V) : Prop :=
  ∀ (sid i j : Nat) (x y : TAct V), s.acts[i]? = some x → s.acts[j]? = some y → x.finished = false →
    y.finished = false → Joining x sid → Joining y sid → i = j

/-- Each sequence has an owner, the only thread that adds to it. -/
def Owned (owner : Nat → Nat) : ManySched V → Prop
  | .start tid _ (.expect _ bs) => ∀ sid, .inSequence sid ∈ bs → owner sid = tid
  | _ => True

/-- The same operation in a sequential program. -/
def operation (x : TAct V) : Op V :=
  match x.act.op with
  | .call k args => .scall x.fn k x.act.tid args
  | .expect k bs => .sexpect x.fn k bs
  | .checkpoint => .scheckpoint x.fn
  | .dropContext => .sdrop x.fn false
  | .dropPanicking => .sdrop x.fn true

/-- The sequential program that does the operations with these numbers, in this order. -/
def program (s : ManyState V) (lin : List Nat) : List (Op V) :=
  lin.filterMap fun id => (s.acts[id]?).map operation

/-- `a` comes before `b`. -/
def Before (l : List Nat) (a b : Nat) : Prop := ∃ x y z, l = x ++ a :: y ++ b :: z

/-- Going on without new operations: at each time `i`, operation number `pick i` makes a step if it can. -/
def goOn (env : Env V) (pick : Nat → Nat) (s : ManyState V) (n : Nat) : ManyState V :=
  s.run env ((List.range n).map fun i => .step (pick i))

/-- No operation is forgotten: the scheduler comes back to each of them for ever. -/
def Fair (pick : Nat → Nat) : Prop := ∀ id N, ∃ n, N ≤ n ∧ pick n = id

end Mockall.Spec.Many
