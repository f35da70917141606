import Verif.Rt.Prelude

/-! # Return values: the three `Rfunc` enums (F:1759-1995)

A `FnMut` closure is an arbitrary function of the list of argument lists it was run with before
(oldest first) and the present arguments.  The history it has seen is stored beside it. -/

namespace Mockall

variable {V : Type}

/-- A `FnMut(args) -> V` closure: behaviour plus what it has been run with so far.  `tag` is a
ghost name used to identify the closure in the log of closure runs (`World.runs`). -/
structure Closure (V : Type) where
  run : List (List V) → List V → Except Panic V
  hist : List (List V) := []
  tag : Nat := 0

/-- A `FnOnce(args) -> V` closure, with a ghost name. -/
structure OnceClosure (V : Type) where
  run : List V → Except Panic V
  tag : Nat := 0

/-- Run the closure once. The new state records the call also when the closure panics. -/
def Closure.call (c : Closure V) (args : List V) : Except Panic V × Closure V :=
  (c.run c.hist args, { c with hist := c.hist ++ [args] })

/-- Which of the three expectation types the generator chose (`expectation_obj`, F:709-723). -/
inductive RetKind
  | static | ref | refMut
  deriving DecidableEq, Repr

/-- Per function facts known to the generator: the expectation type, the name used in expectation
messages (`funcname`, F:765-771), the name used in call descriptions (`desc`, F:632-643) and the
`Default` value of the return type, if it implements `Default`. -/
structure FnInfo (V : Type) where
  kind : RetKind
  funcname : String
  descname : String
  default : Option V

/-- Facts about the running program and the present call: nightly feature or not, the calling
thread, how `ArgPrinter` prints an argument (L:1477-1510), and, for methods returning `&mut T`, what
the caller writes through the returned reference (given the value found there).  The reference
borrows the mock, so nothing else can happen to the mock before that write is over. -/
structure Cx (V : Type) where
  nightly : Bool
  tid : Nat
  dbg : V → String
  upd : V → V := id

/-- `DefaultReturner::return_default`, L:1444-1475. -/
def returnDefault (nightly : Bool) (d : Option V) : Except RetErr V :=
  if nightly then
    match d with
    | some v => .ok v
    | none => .error .noDefault
  else .error .needNightly

/-- `DefaultReturner::maybe_return_default`, L:1444-1475. -/
def maybeReturnDefault (nightly : Bool) (d : Option V) : Option V :=
  if nightly then d else none

/-- The `default_err_msg` of F:1770-1775 and F:1833-1838. -/
def defaultErr (nightly : Bool) : RetErr := if nightly then .noDefault else .needNightly

/-- `RefRfunc`, F:1778-1785: methods that return `&T`. -/
inductive RefRfunc (V : Type)
  | dflt (o : Option V)
  | const (o : V)

/-- `Rfunc::call` of `RefRfunc`, F:1787-1804. -/
def RefRfunc.call (nightly : Bool) : RefRfunc V → Except RetErr V
  | .dflt (some o) => .ok o
  | .dflt none => .error (defaultErr nightly)
  | .const o => .ok o

/-- `RefMutRfunc`, F:1841-1856: methods that return `&mut T`. -/
inductive RefMutRfunc (V : Type)
  | dflt (o : Option V)
  | mut (f : Closure V) (o : Option V)
  | mutSt (owner : Nat) (f : Closure V) (o : Option V)
  | var (o : V)

/-- The result of running an `Rfunc`: the outcome (outer `Except`: a panic; inner: the `Result` of
the Rust function), the new `Rfunc`, and the ghost name of the user closure that was entered, if
any. -/
structure RfuncOut (V ρ : Type) where
  out : Except Panic (Except RetErr V)
  next : ρ
  ran : Option Nat

/-- `Rfunc::call_mut` of `RefMutRfunc`, F:1858-1894.  It returns `&mut` to a slot inside the
`Rfunc`; the model returns the slot's current value (`write` below writes it). -/
def RefMutRfunc.callMut (nightly : Bool) (tid : Nat) (args : List V) :
    RefMutRfunc V → RfuncOut V (RefMutRfunc V)
  | .dflt (some o) => ⟨.ok (.ok o), .dflt (some o), none⟩
  | .dflt none => ⟨.ok (.error (defaultErr nightly)), .dflt none, none⟩
  | .mut f o =>
    match f.call args with
    | (.ok v, f') => ⟨.ok (.ok v), .mut f' (some v), some f.tag⟩
    | (.error p, f') => ⟨.error p, .mut f' o, some f.tag⟩
  | .mutSt owner f o =>
    if tid = owner then
      match f.call args with
      | (.ok v, f') => ⟨.ok (.ok v), .mutSt owner f' (some v), some f.tag⟩
      | (.error p, f') => ⟨.error p, .mutSt owner f' o, some f.tag⟩
    else ⟨.error .fragile, .mutSt owner f o, none⟩
  | .var o => ⟨.ok (.ok o), .var o, none⟩

/-- A write through the `&mut` returned by `call_mut` (F:1863-1864, F:1871-1873, F:1881-1883,
F:1888-1889: the four places the returned reference can point to). -/
def RefMutRfunc.write (v : V) : RefMutRfunc V → RefMutRfunc V
  | .dflt (some _) => .dflt (some v)
  | .dflt none => .dflt none
  | .mut f (some _) => .mut f (some v)
  | .mut f none => .mut f none
  | .mutSt t f (some _) => .mutSt t f (some v)
  | .mutSt t f none => .mutSt t f none
  | .var _ => .var v

/-- `StaticRfunc`, F:1925-1944: methods returning an owned or `'static` value.  The closure of
`Once` is an `FnOnce`. -/
inductive StaticRfunc (V : Type)
  | dflt
  | expired
  | mut (f : Closure V)
  | mutSt (owner : Nat) (f : Closure V)
  | once (f : OnceClosure V)
  | onceSt (owner : Nat) (f : OnceClosure V)

/-- `Rfunc::call_mut` of `StaticRfunc`, F:1946-1985. -/
def StaticRfunc.callMut (nightly : Bool) (dv : Option V) (tid : Nat) (args : List V) :
    StaticRfunc V → RfuncOut V (StaticRfunc V)
  | .dflt => ⟨.ok (returnDefault nightly dv), .dflt, none⟩
  | .expired => ⟨.ok (.error .twice), .expired, none⟩
  | .mut f =>
    match f.call args with
    | (.ok v, f') => ⟨.ok (.ok v), .mut f', some f.tag⟩
    | (.error p, f') => ⟨.error p, .mut f', some f.tag⟩
  | .mutSt owner f =>
    if tid = owner then
      match f.call args with
      | (.ok v, f') => ⟨.ok (.ok v), .mutSt owner f', some f.tag⟩
      | (.error p, f') => ⟨.error p, .mutSt owner f', some f.tag⟩
    else ⟨.error .fragile, .mutSt owner f, none⟩
  -- `mem::replace(self, Expired)` happens before the closure runs
  | .once f =>
    match f.run args with
    | .ok v => ⟨.ok (.ok v), .expired, some f.tag⟩
    | .error p => ⟨.error p, .expired, some f.tag⟩
  | .onceSt owner f =>
    if tid = owner then
      match f.run args with
      | .ok v => ⟨.ok (.ok v), .expired, some f.tag⟩
      | .error p => ⟨.error p, .expired, some f.tag⟩
    else ⟨.error .fragileMove, .expired, none⟩

end Mockall
