import Verif.Spec.Exec
import Verif.Spec.Program
import Verif.Spec.Messages
import Verif.Derive.MessageNames

/-! # Programs and messages

What C82 needs besides `Spec/Exec.lean`. -/

namespace Mockall.Spec

open Derive

variable {V : Type}

/-- The code in the modules prints these texts. -/
def Prints (texts : List Texts) (info : List Ident → MethodInfo V) : Prop :=
  ∀ e ∈ texts, (info e.module).base.funcname = e.func ∧ (info e.module).base.descname = e.desc

/-- The builder calls that an operation makes. -/
def GOp.builds : GOp V → List (Build V)
  | .expect _ _ _ bs => bs
  | .sexpect _ _ bs => bs
  | _ => []

/-- All builder calls of a program. -/
def builderCalls (ops : List (GOp V)) : List (Build V) := ops.flatMap GOp.builds

/-- A program short enough for its calls to be counted, with reasonable arguments of `times`. -/
structure Moderate (ops : List (GOp V)) : Prop where
  short : ops.length < usizeMax
  tame : ∀ b ∈ builderCalls ops, ∀ a, timesOf b = some a → Tame a

/-- The number of calls that an expectation got. -/
def GState.callsTo (σ : GState V) (e : Expectation V) : Nat := σ.world.log.countP (·.gid == e.gid)

/-! ## Programs with several mocks -/

/-- The builder calls that an operation on a mock module makes. -/
def MOp.builds : MOp V → List (Build V)
  | .expect _ _ bs => bs
  | _ => []

/-- The builder calls that an operation on one of several mocks makes. -/
def POp.builds : POp V → List (Build V)
  | .struct _ op => op.builds
  | .module _ op => op.builds

/-- All builder calls of a program. -/
def allBuilderCalls (ops : List (POp V)) : List (Build V) := ops.flatMap POp.builds

/-- As `Moderate`. -/
structure PModerate (ops : List (POp V)) : Prop where
  short : ops.length < usizeMax
  tame : ∀ b ∈ allBuilderCalls ops, ∀ a, timesOf b = some a → Tame a

/-- The number of calls that an expectation got. -/
def PState.callsTo (σ : PState V) (e : Expectation V) : Nat := σ.world.log.countP (·.gid == e.gid)

/-- What a function may panic with when called: the `PoisonError` of a mutex poisoned by an earlier panic, the panic
of user code handed to an expectation, that of a single threaded closure used on another thread, or a message
that begins with the name of the function.  `func` and `desc` are that name, without and with its module. -/
def CallPanic (func desc : String) (bs : List (Build V)) (env : Env V) (tid : Nat) (args : List V) (p : Panic) : Prop :=
  p = .poisoned ∨
  (∃ b ∈ bs, Raises p b) ∨
  ((p = .fragile ∨ p = .fragileMove) ∧ ∃ b ∈ bs, ∃ t, registeredOn b = some t ∧ t ≠ tid) ∨
  p.render = callText desc (args.map env.dbg) ++ ": No matching expectation found" ∨
  p.render = callText desc (args.map env.dbg) ++ ": Method sequence violation" ∨
  ∃ chain why, (∀ b ∈ chain, b ∈ bs) ∧ p.render = func ++ ": Expectation(" ++ describe chain ++ ") " ++ why

/-- What verification may panic with: a `PoisonError`, or a message about one of these expectations of the
function `func`, which has the wrong number of calls. -/
def VerifyPanic (func : String) (es : List (Expectation V)) (calls : Expectation V → Nat) (p : Panic) : Prop :=
  p = .poisoned ∨ ∃ e ∈ es,
    Unmet func (describe e.chain) (window (countArg e.chain)).1 (window (countArg e.chain)).2 (calls e) p.render

end Mockall.Spec
