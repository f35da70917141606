import Verif.Conc.Call

/-! # Concurrent calls with relaxed atomics

Every atomic operation of the library is `Ordering::Relaxed`: the count of an expectation (L:1588,
L:1610, L:1616, L:1628, L:1629) and the level of a sequence (L:1707, L:1713).  `Conc/Call.lean` lets each
load see the latest value.  Here a load may see any value that the C11/Rust memory model allows it to
see: writes to one location are totally ordered (its modification order), a read-modify-write reads the
latest one, and a load reads any one that is not older than what the loading thread already knows of.
A thread knows of what it has read and written itself, and of what other threads knew when it
synchronised with them (spawning, joining, channels, `Arc`s, locks of the test, ...).

Simplifications.
* The locks of matchers and return functions synchronise threads as well.  Ignoring that here allows
  more executions, never fewer.
* What the locks protect is read under the lock, where it is never stale; loading and storing it is as in
  `Conc/Call.lean`.
* Loads do not read from writes that come later in the interleaving.  Each write of the library is a
  read-modify-write whose effect on its thread is to go on or to panic; a compiler or processor that
  performed it before an earlier load of the same thread is not covered. -/

namespace Mockall

variable {V : Type}

/-- The atomic variables: `count` of the expectation at an address (L:1581), and
`satisfaction_level` of a sequence (L:1700). -/
inductive Loc
  | cnt (a : Nat)
  | lvl (sid : Nat)
  deriving DecidableEq

/-- The latest value of an atomic variable. -/
def Mem.get (m : Mem V) : Loc → Nat
  | .cnt a => (m.heap a).count
  | .lvl sid => (m.seqs sid).level

/-- An expectation with another count. -/
def Cell.withCount (c : Cell V) (n : Nat) : Cell V :=
  { c with exp := { c.exp with common := { c.exp.common with times :=
    { c.exp.common.times with count := n } } } }

/-- The memory as it looks to a thread that reads `v` from location `l`. -/
def Mem.pretend (m : Mem V) (l : Loc) (v : Nat) : Mem V :=
  match l with
  | .cnt a => m.put a ((m.heap a).withCount v)
  | .lvl sid => { m with seqs := m.seqs.set sid { m.seqs sid with level := v } }

/-- The variable that the next step of a call loads: `is_done` (L:1616), `verify` (L:1713; only if the
expectation is in a sequence, F:1029-1033), and the two loads of `is_satisfied` (L:1628-1629). -/
def Pc.reads (m : Mem V) : Pc V → Option Loc
  | .check a _ | .loadLow a | .loadHigh a _ => some (.cnt a)
  | .verify a => (m.heap a).exp.common.seqHandle.map fun h => .lvl h.sid
  | _ => none

/-- The variable that the next step of a call increments: `Times::call` (L:1588) and `satisfy`
(L:1707; only if the expectation is in a sequence, F:995-999). -/
def Pc.writes (m : Mem V) : Pc V → Option Loc
  | .inc a => some (.cnt a)
  | .satisfy a => (m.heap a).exp.common.seqHandle.map fun h => .lvl h.sid
  | _ => none

/-- Calls and memory as before (the memory holds the latest values); for each variable all values it
has had in this phase, oldest first; for each thread and variable, which of these values the thread knows
of (as an index). -/
structure WState (V : Type) where
  cs : CState V
  hist : Loc → List Nat
  view : Nat → Loc → Nat

/-- The start of a concurrent phase: everything done before is known to all threads. -/
def WState.init (m : Mem V) : WState V := ⟨⟨m, []⟩, fun l => [m.get l], fun _ _ => 0⟩

/-- Thread `tid` now knows of value number `i` of `l`. -/
def WState.learn (s : WState V) (tid : Nat) (l : Loc) (i : Nat) : WState V :=
  { s with view := fun t k => if t = tid ∧ k = l then i else s.view t k }

/-- Thread `tid` adds a value to the history of `l`. -/
def WState.push (s : WState V) (tid : Nat) (l : Loc) (v : Nat) : WState V :=
  { s.learn tid l (s.hist l).length with
    hist := fun k => if k = l then s.hist l ++ [v] else s.hist k }

/-- Call number `id` becomes `act'` and the memory becomes `m'`. -/
def WState.move (s : WState V) (id : Nat) (act' : Act V) (m' : Mem V) : WState V :=
  { s with cs := { mem := m', acts := s.cs.acts.set id act' } }

/-- What the scheduler does next: thread `tid` calls method `meth`; call number `id` makes a step that
is not a load; call number `id` makes a load, and sees value number `i`; thread `u` synchronises with
thread `v`, that is, what `u` has done so far happens before what `v` does from now on. -/
inductive WSched (V : Type)
  | start (meth tid : Nat) (args : List V)
  | step (id : Nat)
  | load (id : Nat) (i : Nat)
  | sync (u v : Nat)

/-- One scheduling decision. -/
def WState.step (env : CEnv V) (s : WState V) : WSched V → WState V
  | .start meth tid args => { s with cs := s.cs.step env (.start meth tid args) }
  | .step id =>
    match s.cs.acts[id]? with
    | none => s
    | some act =>
      match act.pc.reads s.cs.mem, act.step env id s.cs.mem with
      | none, some r =>
        match act.pc.writes s.cs.mem with
        | none => s.move id r.1 r.2
        | some l => (s.move id r.1 r.2).push act.tid l (r.2.get l)
      | _, _ => s
  | .load id i =>
    match s.cs.acts[id]? with
    | none => s
    | some act =>
      match act.pc.reads s.cs.mem with
      | none => s
      | some l =>
        match (s.hist l)[i]? with
        | none => s
        | some v =>
          if s.view act.tid l ≤ i then
            match act.step env id (s.cs.mem.pretend l v) with
            | none => s
            | some r => (s.move id r.1 s.cs.mem).learn act.tid l i
          else s
  | .sync u v =>
    { s with view := fun t l => if t = v then max (s.view v l) (s.view u l) else s.view t l }

/-- Run a schedule. -/
def WState.run (env : CEnv V) (sch : List (WSched V)) (s : WState V) : WState V :=
  sch.foldl (WState.step env) s

end Mockall
