import Verif.Rt.Expectations

/-! # Concurrent calls

`&self` methods of a mock shared between threads.  While several threads share a mock nobody can
configure, checkpoint or drop it (those need `&mut self` or ownership), so in a concurrent phase the
vectors of expectations are fixed and only calls happen.

One step of this machine is one atomic operation on shared state: acquiring a lock, the code run
under a lock together with its release, one atomic load, or one atomic read-modify-write.  Between
two steps of a call any other call can run.  Atomics are sequentially consistent here; `Conc/Weak.lean` has
the `Relaxed` ordering of the code. -/

namespace Mockall

variable {V : Type}

/-- An expectation in shared memory: its contents, and which call holds the lock of `matcher`
(F:938) and of `rfunc` (F:2177). -/
structure Cell (V : Type) where
  exp : Expectation V
  mheld : Option Nat
  rheld : Option Nat

/-- The number of calls seen by an expectation, L:1581. -/
def Cell.count (c : Cell V) : Nat := c.exp.common.times.count

/-- Where a call is.  `a` is the address of an expectation. -/
inductive Pc (V : Type)
  /-- in `iter().find(..)`, F:2430-2433; the head of the list is examined next: about to lock its
  matcher (F:986) -/
  | scan (rest : List Nat)
  /-- evaluating the matcher of `a`, holding its lock, F:986 -/
  | matching (a : Nat) (rest : List Nat)
  /-- `a` matched; about to load the count for `is_done`, F:2433, L:1616 -/
  | check (a : Nat) (rest : List Nat)
  /-- `a` was found; about to increment the count, L:1588 -/
  | inc (a : Nat)
  /-- the count was too high; about to lock the matcher to print it, F:959-960 -/
  | callFail (a : Nat) (m : CallErr)
  /-- about to load the sequence's level, F:964, L:1713 -/
  | verify (a : Nat)
  /-- about to load the count for the lower bound, F:965, L:1628 -/
  | loadLow (a : Nat)
  /-- about to load the count for the upper bound, L:1629 -/
  | loadHigh (a : Nat) (low : Bool)
  /-- about to increment the sequence's level, F:966, L:1707 -/
  | satisfy (a : Nat)
  /-- about to lock `rfunc`, F:2188 (or, for `ref` methods, to run it, F:2032) -/
  | ret (a : Nat)
  /-- running `call_mut`, holding the lock of `rfunc`, F:2188 -/
  | run (a : Nat)
  /-- `call_mut` failed; still holding the lock of `rfunc`, about to lock the matcher to print it,
  F:2189-2193 -/
  | runFail (a : Nat) (m : RetErr)
  /-- the same for `ref` methods, which have no lock, F:2032-2037 -/
  | refFail (a : Nat) (m : RetErr)
  /-- returned or panicked -/
  | done (r : Except Panic V)

/-- One call of a mock method. `via` and `passed` are ghosts: the expectation that `find` returned,
and whether the call got past the count check. -/
structure Act (V : Type) where
  meth : Nat
  tid : Nat
  args : List V
  via : Option Nat
  passed : Bool
  pc : Pc V

/-- Facts fixed during a concurrent phase: for each method the addresses of its expectations in
order and what the generator knows of it; the `nightly` feature; how arguments print. -/
structure CEnv (V : Type) where
  vec : Nat → List Nat
  info : Nat → FnInfo V
  nightly : Bool
  dbg : V → String

/-- Shared memory: the expectations and the sequences; `runs` is a ghost log of closure runs. -/
structure Mem (V : Type) where
  heap : Nat → Cell V
  seqs : Seqs
  runs : List (Run V)

/-- Overwrite one expectation. -/
def Mem.put (m : Mem V) (a : Nat) (c : Cell V) : Mem V :=
  { m with heap := fun b => if b = a then c else m.heap b }

/-- The context of a call.  A `&self` method returns nothing the caller could write through. -/
def CEnv.cx (env : CEnv V) (act : Act V) : Cx V := ⟨env.nightly, act.tid, env.dbg, id⟩

/-- One step of call number `id`; `none` if it is finished or has to wait for a lock. -/
def Act.step (env : CEnv V) (id : Nat) (act : Act V) (m : Mem V) : Option (Act V × Mem V) :=
  let info := env.info act.meth
  match act.pc with
  -- `find` found nothing: `.expect(&no_match_msg)`, F:574
  | .scan [] =>
    some ({ act with pc := .done (.error (.noMatch (callDesc (env.cx act) info act.args))) }, m)
  -- `self.matcher.lock().unwrap()`, F:986
  | .scan (a :: rest) =>
    let c := m.heap a
    match c.mheld with
    | some _ => none
    | none =>
      if c.exp.common.mpoison then some ({ act with pc := .done (.error .poisoned) }, m)
      else some ({ act with pc := .matching a rest }, m.put a { c with mheld := some id })
  -- `.matches(..)` and the release of the guard, F:986
  | .matching a rest =>
    let c := m.heap a
    let r := c.exp.common.matcher.matches act.tid act.args
    -- unwinding with a live guard sets the flag, a normal release leaves it alone
    let poison := match r with | .ok _ => c.exp.common.mpoison | .error _ => true
    let c' := { c with
      exp := { c.exp with common := { c.exp.common with mpoison := poison } }, mheld := none }
    let pc : Pc V := match r with
      | .error p => .done (.error p)
      | .ok true => .check a rest
      | .ok false => .scan rest
    some ({ act with pc := pc }, m.put a c')
  -- `!is_done() || self.0.len() == 1`, F:2433
  | .check a rest =>
    match (m.heap a).exp.isDone with
    | .error p => some ({ act with pc := .done (.error p) }, m)
    | .ok done =>
      if !done || (env.vec act.meth).length == 1 then
        some ({ act with via := some a, pc := .inc a }, m)
      else some ({ act with pc := .scan rest }, m)
  -- `Times::call`, L:1587-1602
  | .inc a =>
    let c := m.heap a
    let r := c.exp.common.times.call
    let c' := { c with exp := { c.exp with common := { c.exp.common with times := r.2 } } }
    let act' : Act V := match r.1 with
      | .error p => { act with pc := .done (.error p) }
      | .ok (.error e) => { act with pc := .callFail a e }
      | .ok (.ok ()) => { act with passed := true, pc := .verify a }
    some (act', m.put a c')
  -- the closure of `unwrap_or_else`, F:958-963
  | .callFail a e =>
    let c := m.heap a
    match c.mheld with
    | some _ => none
    | none =>
      let p : Panic :=
        if c.exp.common.mpoison then .poisoned
        else .call info.funcname c.exp.common.matcher.display e
      some ({ act with pc := .done (.error p) }, m)
  -- `verify_sequence`, F:1029-1033
  | .verify a =>
    match (m.heap a).exp.common.verifySequence m.seqs (callDesc (env.cx act) info act.args) with
    | .error p => some ({ act with pc := .done (.error p) }, m)
    | .ok () => some ({ act with pc := .loadLow a }, m)
  -- `is_satisfied`, L:1627-1637: two loads
  | .loadLow a =>
    let t := (m.heap a).exp.common.times
    some ({ act with pc := .loadHigh a (decide (t.count ≥ t.range.start)) }, m)
  | .loadHigh a low =>
    let t := (m.heap a).exp.common.times
    let high := decide (t.count < t.range.end_)
    let s : ExpectedCalls := if low && high then .satisfied else if low then .tooMany else .tooFew
    some ({ act with pc := if s ≠ .tooFew then .satisfy a else .ret a }, m)
  -- `satisfy_sequence`, F:995-999
  | .satisfy a =>
    let r := (m.heap a).exp.common.satisfySequence m.seqs
    let pc : Pc V := match r.1 with
      | .error p => .done (.error p)
      | .ok () => .ret a
    some ({ act with pc := pc }, { m with seqs := r.2 })
  | .ret a =>
    let c := m.heap a
    match c.exp.ret with
    -- F:2031-2037
    | .ref r =>
      match r.call env.nightly with
      | .ok v => some ({ act with pc := .done (.ok v) }, m)
      | .error e => some ({ act with pc := .refFail a e }, m)
    -- `self.rfunc.lock().unwrap()`, F:2188
    | .static _ poison =>
      match c.rheld with
      | some _ => none
      | none =>
        if poison then some ({ act with pc := .done (.error .poisoned) }, m)
        else some ({ act with pc := .run a }, m.put a { c with rheld := some id })
    -- `call_mut(&mut self)`, F:2096-2103: the caller has exclusive access to the mock, so this is
    -- never interleaved with anything; run in one step
    | .refMut _ =>
      let o := c.exp.ret_call (env.cx act) info act.args ⟨m.seqs, 0, [], [], m.runs⟩
      some ({ act with pc := .done o.1 }, { m.put a { c with exp := o.2.1 } with runs := o.2.2.runs })
  -- `call_mut(..)`, F:2188, and the release of the guard unless it failed
  | .run a =>
    let c := m.heap a
    match c.exp.ret with
    | .static r poison =>
      let o := r.callMut env.nightly info.default act.tid act.args
      let runs := m.runs ++ runEntry (env.cx act) act.args o.ran
      match o.out with
      | .ok (.ok v) =>
        some ({ act with pc := .done (.ok v) },
          { m.put a { c with exp := { c.exp with ret := .static o.next poison }, rheld := none } with
            runs := runs })
      | .ok (.error e) =>
        some ({ act with pc := .runFail a e },
          { m.put a { c with exp := { c.exp with ret := .static o.next poison } } with runs := runs })
      | .error p =>
        some ({ act with pc := .done (.error p) },
          { m.put a { c with exp := { c.exp with ret := .static o.next true }, rheld := none } with
            runs := runs })
    | _ => none
  -- the closure of `unwrap_or_else`, F:2189-2193; unwinding then poisons and releases `rfunc`
  | .runFail a e =>
    let c := m.heap a
    match c.mheld with
    | some _ => none
    | none =>
      match c.exp.ret with
      | .static r _ =>
        let p : Panic :=
          if c.exp.common.mpoison then .poisoned
          else .ret info.funcname c.exp.common.matcher.display e
        some ({ act with pc := .done (.error p) },
          m.put a { c with exp := { c.exp with ret := .static r true }, rheld := none })
      | _ => none
  | .refFail a e =>
    let c := m.heap a
    match c.mheld with
    | some _ => none
    | none =>
      let p : Panic :=
        if c.exp.common.mpoison then .poisoned
        else .ret info.funcname c.exp.common.matcher.display e
      some ({ act with pc := .done (.error p) }, m)
  | .done _ => none

/-! ## Any number of threads -/

/-- Shared memory and all calls made so far in this phase, oldest first. -/
structure CState (V : Type) where
  mem : Mem V
  acts : List (Act V)

/-- Is the call over? -/
def Act.finished (act : Act V) : Bool := match act.pc with | .done _ => true | _ => false

/-- What the scheduler does next: thread `tid` calls method `meth`, or call number `id` makes one
step. -/
inductive Sched (V : Type)
  | start (meth tid : Nat) (args : List V)
  | step (id : Nat)

/-- The start of a call, F:564-575. -/
def Act.start (env : CEnv V) (meth tid : Nat) (args : List V) : Act V :=
  ⟨meth, tid, args, none, false, .scan (env.vec meth)⟩

/-- One scheduling decision.  A thread makes one call at a time; a call that waits for a lock stays
where it is. -/
def CState.step (env : CEnv V) (s : CState V) : Sched V → CState V
  | .start meth tid args =>
    if s.acts.all fun a => a.finished || a.tid != tid then
      { s with acts := s.acts ++ [Act.start env meth tid args] }
    else s
  | .step id =>
    match s.acts[id]? with
    | none => s
    | some act =>
      match act.step env id s.mem with
      | none => s
      | some r => { mem := r.2, acts := s.acts.set id r.1 }

/-- Run a schedule. -/
def CState.run (env : CEnv V) (sch : List (Sched V)) (s : CState V) : CState V :=
  sch.foldl (CState.step env) s

end Mockall
