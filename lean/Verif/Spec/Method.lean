import Verif.Spec.Builders
import Verif.Rt.Method

/-! # Specification of one mocked method

The user's view of a mocked method returning an owned value, without locks, atomics, closures with
hidden state or `Vec` scans.  Expectations that belong to no `Sequence`, whose predicates and
closures do not panic; all operations on one thread. -/

namespace Mockall.Spec

variable {V : Type}

/-- A builder call with well behaved user code.  `st` selects the single threaded variant. -/
inductive SBuild (V : Type)
  | times (a : TimesArg)
  | once
  | never
  | with (ps : List ((V → Bool) × String))
  | withf (st : Bool) (f : List V → Bool)
  | returning (st : Bool) (tag : Nat) (f : List (List V) → List V → V)
  | returnConst (st : Bool) (v : V)
  | returnOnce (st : Bool) (tag : Nat) (f : List V → V)

/-- How the user writes it, on thread `tid`. -/
def SBuild.code (tid : Nat) : SBuild V → Build V
  | .times a => .times a
  | .once => .once
  | .never => .never
  | .with ps => .with (ps.map fun p => ⟨fun v => .ok (p.1 v), p.2⟩)
  | .withf false f => .withf fun as => .ok (f as)
  | .withf true f => .withfSt tid fun as => .ok (f as)
  | .returning false tag f => .returning { run := fun h as => .ok (f h as), tag := tag }
  | .returning true tag f => .returningSt tid { run := fun h as => .ok (f h as), tag := tag }
  | .returnConst false v => .returnConst v
  | .returnConst true v => .returnConstSt tid v
  | .returnOnce false tag f => .returnOnce { run := fun as => .ok (f as), tag := tag }
  | .returnOnce true tag f => .returnOnceSt tid { run := fun as => .ok (f as), tag := tag }

/-- How an expectation answers: not configured, once by moving a value out, or by a function of
(earlier calls it answered, present arguments).  `tag` names the closure in the log. -/
inductive Answer (V : Type)
  | unset
  | once (tag : Nat) (f : List V → V)
  | fn (tag : Nat) (f : List (List V) → List V → V)

/-- The count window a builder call sets, if it sets one. -/
def SBuild.window? : SBuild V → Option (Nat × Nat)
  | .times a => some (window a)
  | .once => some (1, 1)
  | .never => some (0, 0)
  | _ => none

/-- The matcher a builder call sets: who is accepted, and its description in messages. -/
def SBuild.matcher? : SBuild V → Option ((List V → Bool) × String)
  | .with ps => some (fun as => (ps.zip as).all fun q => q.1.1 q.2,
      ", ".intercalate (ps.map (·.2)))
  | .withf false f => some (f, "<function>")
  | .withf true f => some (f, "<single threaded function>")
  | _ => none

/-- The return value a builder call sets. -/
def SBuild.answer? : SBuild V → Option (Answer V)
  | .returning _ tag f => some (.fn tag f)
  | .returnConst _ v => some (.fn 0 fun _ _ => v)
  | .returnOnce _ tag f => some (.once tag f)
  | _ => none

/-- An expectation as the user thinks of it. -/
structure Exp (V : Type) where
  /-- fewest and most calls allowed -/
  lo : Nat
  hi : Nat
  accepts : List V → Bool
  descr : String
  answer : Answer V
  /-- number of calls directed at it so far, including rejected surplus calls -/
  attempts : Nat
  /-- arguments of the calls it has answered so far, oldest first -/
  served : List (List V)

/-- A configured expectation: by default any number of calls, any arguments, no return value. -/
def Exp.make (bs : List (SBuild V)) : Exp V :=
  let w := lastOf SBuild.window? (0, usizeMax - 1) bs
  let m := lastOf SBuild.matcher? (fun _ => true, "<anything>") bs
  { lo := w.1, hi := w.2, accepts := m.1, descr := m.2
    answer := lastOf SBuild.answer? .unset bs, attempts := 0, served := [] }

/-- All `times` arguments of a builder chain are tame (none of them panics, none is the empty
range or reaches `usize::MAX`). -/
def TameBuilds (bs : List (SBuild V)) : Prop :=
  ∀ b ∈ bs, ∀ a, b = .times a → Tame a

/-- What a call answered by `e` returns. -/
def Exp.reply (nightly : Bool) (info : FnInfo V) (e : Exp V) (args : List V) : Except Panic V :=
  match e.answer with
  | .fn _ f => .ok (f e.served args)
  | .once _ f =>
    match e.served.length with
    | 0 => .ok (f args)
    | 1 => .error (.ret info.funcname e.descr .twice)
    | _ => .error .poisoned
  | .unset =>
    match nightly, info.default with
    | true, some v => .ok v
    | true, none =>
      if e.served = [] then .error (.ret info.funcname e.descr .noDefault) else .error .poisoned
    | false, _ =>
      if e.served = [] then .error (.ret info.funcname e.descr .needNightly) else .error .poisoned

/-- Which user closure a call answered by `e` executes. -/
def Exp.runs (e : Exp V) : Option Nat :=
  match e.answer with
  | .fn tag _ => some tag
  | .once tag _ => if e.served = [] then some tag else none
  | .unset => none

/-- The panic of a surplus call to the only expectation. -/
def Exp.surplus (info : FnInfo V) (e : Exp V) : Panic :=
  .call info.funcname e.descr
    (if e.hi = 0 then .shouldNot else .tooMany (e.attempts + 1) e.hi)

/-- `e` can answer a call with these arguments. -/
def Exp.ready (e : Exp V) (args : List V) : Bool := e.accepts args && decide (e.attempts < e.hi)

/-- State: the expectations in the order they were declared, and the closures run so far. -/
structure State (V : Type) where
  exps : List (Exp V)
  runs : List (Run V)

/-- A call: the first ready expectation answers it; otherwise the call panics. -/
def State.call (nightly : Bool) (dbg : V → String) (info : FnInfo V) (tid : Nat) (s : State V)
    (args : List V) : Except Panic V × State V :=
  let noMatch : Panic :=
    .noMatch (info.descname ++ "(" ++ ", ".intercalate (args.map dbg) ++ ")")
  match s.exps.findIdx? (·.ready args) with
  | some i =>
    match s.exps[i]? with
    | some e =>
      (e.reply nightly info args,
        { exps := s.exps.set i { e with attempts := e.attempts + 1, served := e.served ++ [args] }
          runs := s.runs ++ (match e.runs with | some t => [⟨t, tid, args⟩] | none => []) })
    | none => (.error noMatch, s)
  | none =>
    match s.exps with
    | [e] =>
      if e.accepts args then
        (.error (e.surplus info), { s with exps := [{ e with attempts := e.attempts + 1 }] })
      else (.error noMatch, s)
    | _ => (.error noMatch, s)

/-- A program step: declare an expectation, or call the method. -/
inductive SOp (V : Type)
  | expect (bs : List (SBuild V))
  | call (args : List V)

/-- How the user writes it. -/
def SOp.code (tid : Nat) : SOp V → MOp V
  | .expect bs => .expect (bs.map (SBuild.code tid))
  | .call args => .call tid args id

/-- All `times` arguments of a program are tame. -/
def TameOps (ops : List (SOp V)) : Prop :=
  ∀ op ∈ ops, ∀ bs, op = .expect bs → TameBuilds bs

/-- Run one step of the specification. -/
def State.step (nightly : Bool) (dbg : V → String) (info : FnInfo V) (tid : Nat) (s : State V) :
    SOp V → MObs V × State V
  | .expect bs => (.expected (.ok ()), { s with exps := s.exps ++ [Exp.make bs] })
  | .call args =>
    let (r, s') := s.call nightly dbg info tid args
    (.returned r, s')

/-- Run a program on the specification. -/
def State.run (nightly : Bool) (dbg : V → String) (info : FnInfo V) (tid : Nat) :
    List (SOp V) → State V → List (MObs V) × State V
  | [], s => ([], s)
  | op :: ops, s =>
    let (o, s') := s.step nightly dbg info tid op
    let (os, s'') := State.run nightly dbg info tid ops s'
    (o :: os, s'')

end Mockall.Spec
