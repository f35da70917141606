import Verif.Conc.Call

/-! # Calls made by predicates and return closures

In `Conc/Call.lean` a predicate or return closure is a function: it cannot call mocks, and it depends on
nothing but its arguments and what it was called with before.  Here user code is arbitrary.  While it runs,
its thread may call any methods, whose user code may again call methods, to any depth; and when it ends, it
yields anything.  What it does is up to the schedule, so a theorem about all schedules is about all user
code, whatever it computes and whatever it shares with other code.

A call made by user code belongs to the same thread as the call that runs the user code, which goes on only
when the inner one is over.  So the calls of a thread that are not over form a stack: all but the last
have entered user code.

Simplification: closures of methods that return `&mut T` (`&mut self`, so nobody else can use the mock
meanwhile) are functions as before. -/

namespace Mockall

variable {V : Type}

/-- What a run of user code comes to: a predicate says yes or no or panics; a return closure yields a value
or panics. -/
structure Answer (V : Type) where
  verdict : Except Panic Bool
  value : Except Panic V

/-- The matcher whose user code answers `r` (F:1716-1729). -/
def Matcher.scripted (r : Except Panic Bool) : Matcher V → Matcher V
  | .always => .always
  | .func _ => .func fun _ => r
  | .funcSt owner _ => .funcSt owner fun _ => r
  | .pred ps => .pred (ps.map fun p => { p with eval := fun _ => r })

/-- The return function whose closure answers `r` (F:1946-1985). -/
def StaticRfunc.scripted (r : Except Panic V) : StaticRfunc V → StaticRfunc V
  | .dflt => .dflt
  | .expired => .expired
  | .mut f => .mut { f with run := fun _ _ => r }
  | .mutSt owner f => .mutSt owner { f with run := fun _ _ => r }
  | .once f => .once { f with run := fun _ => r }
  | .onceSt owner f => .onceSt owner { f with run := fun _ => r }

/-- The return function `new`, with the closure that `old` has. -/
def StaticRfunc.restored (old new : StaticRfunc V) : StaticRfunc V :=
  match old, new with
  | .mut f, .mut g => .mut { g with run := f.run }
  | .mutSt _ f, .mutSt owner g => .mutSt owner { g with run := f.run }
  | .once f, .once g => .once { g with run := f.run }
  | .onceSt _ f, .onceSt owner g => .onceSt owner { g with run := f.run }
  | _, new => new

/-- The same for all kinds of expectations. -/
def Ret.scripted (r : Except Panic V) : Ret V → Ret V
  | .static f poison => .static (f.scripted r) poison
  | f => f

/-- The same for all kinds of expectations. -/
def Ret.restored (old new : Ret V) : Ret V :=
  match old, new with
  | .static f _, .static g poison => .static (f.restored g) poison
  | _, new => new

/-- An expectation whose user code answers `ans`. -/
def Cell.scripted (ans : Answer V) (c : Cell V) : Cell V :=
  { c with exp := { c.exp with
      common := { c.exp.common with matcher := c.exp.common.matcher.scripted ans.verdict }
      ret := c.exp.ret.scripted ans.value } }

/-- The expectation `new`, with the user code that `old` has. -/
def Cell.restored (old new : Cell V) : Cell V :=
  { new with exp := { new.exp with
      common := { new.exp.common with matcher := old.exp.common.matcher }
      ret := old.exp.ret.restored new.exp.ret } }

/-- The memory in which user code answers `ans`. -/
def Mem.scripted (ans : Answer V) (m : Mem V) : Mem V :=
  { m with heap := fun a => (m.heap a).scripted ans }

/-- The memory `new`, with the user code that `old` has. -/
def Mem.restored (old new : Mem V) : Mem V :=
  { new with heap := fun a => (old.heap a).restored (new.heap a) }

/-- Does `Matcher::matches` enter user code (F:1716-1729)?  A single threaded closure panics on foreign
threads before it is entered. -/
def Matcher.enters (tid : Nat) : Matcher V → Bool
  | .always => false
  | .func _ => true
  | .funcSt owner _ => tid == owner
  | .pred ps => !ps.isEmpty

/-- Does `call_mut` enter user code (F:1946-1985)? -/
def StaticRfunc.enters (tid : Nat) : StaticRfunc V → Bool
  | .dflt | .expired => false
  | .mut _ | .once _ => true
  | .mutSt owner _ | .onceSt owner _ => tid == owner

/-- The expectation whose user code a call is executing, if any. -/
def Act.user (m : Mem V) (act : Act V) : Option Nat :=
  match act.pc with
  | .matching a _ => if (m.heap a).exp.common.matcher.enters act.tid then some a else none
  | .run a =>
    match (m.heap a).exp.ret with
    | .static f _ => if f.enters act.tid then some a else none
    | _ => none
  | _ => none

/-- What the scheduler does next: thread `tid` calls method `meth`; call number `id` makes one step, in
which user code, if it ends with this step, comes to `ans`. -/
inductive NSched (V : Type)
  | start (meth tid : Nat) (args : List V)
  | step (id : Nat) (ans : Answer V)

/-- Is call number `id` the innermost one of its thread `tid` that is not over? -/
def CState.innermost (s : CState V) (id tid : Nat) : Bool :=
  (s.acts.drop (id + 1)).all fun x => x.finished || x.tid != tid

/-- May thread `tid` make a call?  Only if it is not in a call, or in user code. -/
def CState.mayCall (s : CState V) (tid : Nat) : Bool :=
  s.acts.all fun x => x.finished || x.tid != tid || (x.user s.mem).isSome

/-- One scheduling decision. -/
def CState.nstep (env : CEnv V) (s : CState V) : NSched V → CState V
  | .start meth tid args =>
    if s.mayCall tid then { s with acts := s.acts ++ [Act.start env meth tid args] } else s
  | .step id ans =>
    match s.acts[id]? with
    | none => s
    | some act =>
      if s.innermost id act.tid then
        match act.step env id (s.mem.scripted ans) with
        | none => s
        | some r => { mem := s.mem.restored r.2, acts := s.acts.set id r.1 }
      else s

/-- Run a schedule. -/
def CState.nrun (env : CEnv V) (sch : List (NSched V)) (s : CState V) : CState V :=
  sch.foldl (CState.nstep env) s

end Mockall
