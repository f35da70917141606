import Verif.Rt.Expectation
import Verif.Spec.Times

/-! # Specification of builder chains

Which setting each builder call makes, by kind.  A chain of builder calls then means, for each kind,
the last setting of that kind. -/

namespace Mockall.Spec

variable {V : Type}

/-- The half open interval of counts a `times` argument spells; unbounded ranges end at `usize::MAX`. -/
def halfOpen : TimesArg → TimesRange
  | .n n => ⟨n, n + 1⟩
  | .range a b => ⟨a, b⟩
  | .rangeFrom a => ⟨a, usizeMax⟩
  | .rangeFull => ⟨0, usizeMax⟩
  | .rangeInclusive a b => ⟨a, b + 1⟩
  | .rangeTo b => ⟨0, b⟩
  | .rangeToInclusive b => ⟨0, b + 1⟩

/-- `times`, `once` and `never` set the count window. -/
def countOf : Build V → Option TimesRange
  | .times a => some (halfOpen a)
  | .once => some ⟨1, 2⟩
  | .never => some ⟨0, 1⟩
  | _ => none

/-- `with`, `withf` and `withf_st` set the argument matcher. -/
def matcherOf : Build V → Option (Matcher V)
  | .with ps => some (.pred ps)
  | .withf f => some (.func f)
  | .withfSt t f => some (.funcSt t f)
  | _ => none

/-- The return value setters, for each of the three kinds of expectation. -/
def retOf : RetKind → Build V → Option (Ret V)
  | .ref, .returnConst v => some (.ref (.const v))
  | .refMut, .returning f => some (.refMut (.mut f none))
  | .refMut, .returningSt t f => some (.refMut (.mutSt t f none))
  | .refMut, .returnVar v => some (.refMut (.var v))
  | .static, .returning f => some (.static (.mut f) false)
  | .static, .returningSt t f => some (.static (.mutSt t f) false)
  | .static, .returnConst v => some (.static (.mut { run := fun _ _ => .ok v }) false)
  | .static, .returnConstSt t v => some (.static (.mutSt t { run := fun _ _ => .ok v }) false)
  | .static, .returnOnce f => some (.static (.once f) false)
  | .static, .returnOnceSt t f => some (.static (.onceSt t f) false)
  | _, _ => none

/-- `in_sequence` is the only builder call that involves a sequence. -/
def isInSequence : Build V → Bool
  | .inSequence _ => true
  | _ => false

/-- The argument of the equivalent `times` call. -/
def timesOf : Build V → Option TimesArg
  | .times a => some a
  | .once => some (.n 1)
  | .never => some (.n 0)
  | _ => none

/-- The sequence a builder call joins. -/
def sequenceOf : Build V → Option (Option Nat)
  | .inSequence sid => some (some sid)
  | _ => none

/-- The last setting of a kind wins; `d` if there is none. -/
def lastOf {α β : Type} (g : α → Option β) (d : β) (bs : List α) : β :=
  ((bs.filterMap g).getLast?).getD d

/-- What a builder call that sets the matcher says about a call: all the predicates of `with` hold of
their arguments, the closure of `withf` accepts them, the closure of `withf_st` accepts them on the
thread it was registered from.  A panic of user code is passed on. -/
def decision (tid : Nat) (args : List V) : Build V → Option (Except Panic Bool)
  | .with ps =>
    some ((ps.zip args).foldr (fun pa r => do let b ← pa.1.eval pa.2; let c ← r; return b && c) (.ok true))
  | .withf f => some (f args)
  | .withfSt t f => some (if tid = t then f args else .error .fragile)
  | _ => none

/-- Whether an expectation built by a chain accepts a call: the last matcher set decides; without a
matcher every call is accepted. -/
def verdict (tid : Nat) (args : List V) (chain : List (Build V)) : Except Panic Bool :=
  lastOf (decision tid args) (.ok true) chain

/-- The `times` argument in force after a builder chain; `..` if there is none. -/
def countArg (chain : List (Build V)) : TimesArg := lastOf timesOf .rangeFull chain

/-- The return value of an expectation on which no return value was set: the type's default with
the `nightly` feature (kept inside reference returning expectations), otherwise none. -/
def retDefault (nightly : Bool) (info : FnInfo V) : Ret V :=
  match info.kind with
  | .ref => .ref (.dflt (if nightly then info.default else none))
  | .refMut => .refMut (.dflt (if nightly then info.default else none))
  | .static => .static .dflt false

end Mockall.Spec
