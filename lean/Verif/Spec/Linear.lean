import Verif.Conc.Call
import Verif.Rt.System

/-! # Specification: concurrent calls and the same calls one after the other (C85)

The concurrent machine (`Conc/Call.lean`) has addresses of expectations and numbers of methods, the
sequential one (`Rt/System.lean`) has objects, methods and instantiations.  `Shared` says that a
memory of the first is the state of a program of the second, handed to several threads. -/

namespace Mockall.Spec

open Mockall

variable {V : Type}

/-- A mocked function that takes `&self`: an object, a method of it, and, if the method is generic, an
instantiation of its type parameters. -/
structure MockFn where
  obj : Nat
  meth : Nat
  key : Key
  deriving DecidableEq

/-- The method with its expectations, if the object is alive and has such a method. -/
def MockFn.slot (f : MockFn) (s : Sys V) : Option (Slot V) :=
  match s.objs[f.obj]? with
  | some (some obj) => obj[f.meth]?
  | _ => none

/-- The expectations of one instantiation, in the order of their declaration. -/
def expsOf (k : Key) : Store V → List (Expectation V)
  | .concrete es => es
  | .generic g => (GMap.get g k).getD []

/-- Two different functions.  A method that is not generic is only one function. -/
def MockFn.Differ (f g : MockFn) (sl : Slot V) : Prop :=
  f.obj ≠ g.obj ∨ f.meth ≠ g.meth ∨ (sl.mi.generic = true ∧ f.key ≠ g.key)

/-- The memory `m` holds the mock objects and sequences of the program state `s`; `num n` is the
function that the threads know as number `n`.  No lock is held.  (Logs are left out: they are ghosts.) -/
structure Shared (env : Env V) (s : Sys V) (num : Nat → MockFn) (ce : CEnv V) (m : Mem V) : Prop where
  nightly : ce.nightly = env.nightly
  dbg : ce.dbg = env.dbg
  /-- different numbers are different functions -/
  distinct : ∀ n n' sl sl', n ≠ n' → (num n).slot s = some sl → (num n').slot s = some sl' →
    (num n).Differ (num n') sl
  info : ∀ n sl, (num n).slot s = some sl → ce.info n = sl.mi.fn (num n).key
  exps : ∀ n sl, (num n).slot s = some sl →
    (ce.vec n).map (fun a => (m.heap a).exp) = expsOf (num n).key sl.store
  /-- every expectation has an address of its own -/
  nodup : ∀ n sl, (num n).slot s = some sl → (ce.vec n).Nodup
  disjoint : ∀ n n' sl sl', n ≠ n' → (num n).slot s = some sl → (num n').slot s = some sl' →
    ∀ a ∈ ce.vec n, a ∉ ce.vec n'
  free : ∀ n sl, (num n).slot s = some sl →
    ∀ a ∈ ce.vec n, (m.heap a).mheld = none ∧ (m.heap a).rheld = none
  seqs : m.seqs = s.world.seqs

/-- Two functions have nothing to do with each other: they differ, and no expectation on the one is in
the same sequence as an expectation on the other. -/
def Apart (ce : CEnv V) (m : Mem V) (n n' : Nat) : Prop :=
  n ≠ n' ∧ ∀ a ∈ ce.vec n, ∀ b ∈ ce.vec n', ∀ h h',
    (m.heap a).exp.common.seqHandle = some h → (m.heap b).exp.common.seqHandle = some h' →
    h.sid ≠ h'.sid

/-- Threads only call functions that exist, and a call only begins while the calls that other threads
have not finished are to functions that have nothing to do with it.  Apart from that, threads run as
they like.  `m` is the memory in which the threads started. -/
def Independent (ce : CEnv V) (s : Sys V) (num : Nat → MockFn) (m : Mem V) :
    List (Sched V) → CState V → Prop
  | [], _ => True
  | .step id :: xs, t => Independent ce s num m xs (t.step ce (.step id))
  | .start n tid args :: xs, t =>
    ((num n).slot s ≠ none ∧
      ∀ act ∈ t.acts, act.finished = false → act.tid ≠ tid → Apart ce m act.meth n) ∧
    Independent ce s num m xs (t.step ce (.start n tid args))

/-- The same call in a sequential program. -/
def asOp (num : Nat → MockFn) (act : Act V) : Op V :=
  .call (num act.meth).obj (num act.meth).meth (num act.meth).key act.tid act.args id

end Mockall.Spec
