import Verif.Conc.Static
import Verif.Conc.Nested

/-! # Static methods whose predicates and closures use static methods

Every static method has its own mutex (F:1465-1473, F:1486-1493), held for the whole of a call, predicates and
closures included (F:549-559), and for as long as the `ExpectationGuard` of `Context::expect` lives (F:1243-1268,
F:1616-1621).  Here any number of threads use any number of static methods.  As in `Conc/Nested.lean` user code is
arbitrary: what it answers is part of the schedule, and while it runs its thread may do any operations on static
methods, to any depth.

User code runs under the mutex of a method while a predicate or closure of it runs, and between the builder
calls on an `ExpectationGuard`: in `ctx.expect().return_const(x())` the guard lives when `x()` is evaluated, and in
`let mut g = ctx.expect();` it lives on.

Simplifications: those of `Conc/Static.lean`; methods of mock objects are not used; user code that runs when
expectations are dropped (destructors of what closures own) does nothing. -/

namespace Mockall

variable {V : Type}

/-- An operation on method number `fn`. -/
structure TAct (V : Type) where
  fn : Nat
  act : SAct V

/-- All methods, which operation holds the mutex of each, the rest of the state, and all operations begun so
far, oldest first. -/
structure TState (V : Type) where
  fns : Nat → StaticFn V
  held : Nat → Option Nat
  world : World V
  acts : List (TAct V)

/-- An expectation whose user code answers `ans`. -/
def Expectation.scripted (ans : Answer V) (e : Expectation V) : Expectation V :=
  { e with
    common := { e.common with matcher := e.common.matcher.scripted ans.verdict }
    ret := e.ret.scripted ans.value }

/-- The expectation `new`, with the user code that `old` has. -/
def Expectation.restored (old new : Expectation V) : Expectation V :=
  { new with
    common := { new.common with matcher := old.common.matcher }
    ret := old.ret.restored new.ret }

/-- Change one expectation. -/
def StaticFn.edit (k : Key) (i : Nat) (g : Expectation V → Expectation V) (sf : StaticFn V) : StaticFn V :=
  match (sf.store.vec k)[i]? with
  | some e => { sf with store := sf.store.setVec k ((sf.store.vec k).set i (g e)) }
  | none => sf

/-- The expectation whose predicate or closure the next step of a call evaluates. -/
def SPc.place : SPc V → Option Nat
  | .scan i => some i
  | .ret i => some i
  | _ => none

/-- Is this operation over? -/
def TAct.finished (x : TAct V) : Bool := x.act.finished

/-- Is this operation executing user code?  `Matcher::matches` (F:983-987, F:1676-1690, F:1716-1729) and `call_mut`
(F:1946-1985) do if their locks are not poisoned and single threaded closures are at home; between builder calls
anything may happen. -/
def TAct.user (s : TState V) (x : TAct V) : Bool :=
  let es := (s.fns x.fn).store.vec x.act.op.key
  match x.act.pc with
  | .scan i =>
    match es[i]? with
    | some e => !e.common.mpoison && e.common.matcher.enters x.act.tid
    | none => false
  | .ret i =>
    match es[i]? with
    | some e =>
      match e.ret with
      | .static f poison => !poison && f.enters x.act.tid
      | _ => false
    | none => false
  | .build _ _ => true
  | _ => false

/-- What the scheduler does next: thread `tid` begins an operation on method `f`; operation number `id` makes one
step, in which user code, if it ends with this step, comes to `ans`. -/
inductive TSched (V : Type)
  | start (tid f : Nat) (op : SOp V)
  | step (id : Nat) (ans : Answer V)

/-- Is operation number `id` the innermost one of its thread `tid` that is not over? -/
def TState.innermost (s : TState V) (id tid : Nat) : Bool :=
  (s.acts.drop (id + 1)).all fun x => x.finished || x.act.tid != tid

/-- May thread `tid` begin an operation?  Only if it is in none, or in user code. -/
def TState.mayStart (s : TState V) (tid : Nat) : Bool :=
  s.acts.all fun x => x.finished || x.act.tid != tid || x.user s

/-- One step of operation number `id`: that of `Conc/Static.lean`, on its method, with user code that answers
`ans`; `none` if it is over or waits for the mutex. -/
def TState.stepAct (env : Env V) (s : TState V) (id : Nat) (x : TAct V) (ans : Answer V) : Option (TState V) :=
  let k := x.act.op.key
  let sf := s.fns x.fn
  let sf0 := match x.act.pc.place with | some i => sf.edit k i (Expectation.scripted ans) | none => sf
  match x.act.step env id ⟨sf0, s.world, s.held x.fn, s.acts.map TAct.act⟩ with
  | none => none
  | some t =>
    let sf1 := match x.act.pc.place with
      | some i =>
        match (sf.store.vec k)[i]? with
        | some e => t.sf.edit k i (Expectation.restored e)
        | none => t.sf
      | none => t.sf
    some {
      fns := fun g => if g = x.fn then sf1 else s.fns g
      held := fun g => if g = x.fn then t.held else s.held g
      world := t.world
      acts := s.acts.set id { x with act := (t.acts[id]?).getD x.act } }

/-- One scheduling decision. -/
def TState.step (env : Env V) (s : TState V) : TSched V → TState V
  | .start tid f op =>
    if s.mayStart tid then { s with acts := s.acts ++ [⟨f, ⟨tid, op, op.start⟩⟩] } else s
  | .step id ans =>
    match s.acts[id]? with
    | none => s
    | some x => if s.innermost id x.act.tid then (s.stepAct env id x ans).getD s else s

/-- Run a schedule. -/
def TState.run (env : Env V) (sch : List (TSched V)) (s : TState V) : TState V := sch.foldl (TState.step env) s

/-- At rest: these methods, nobody uses them. -/
def TState.rest (fns : Nat → StaticFn V) (w : World V) : TState V := ⟨fns, fun _ => none, w, []⟩

end Mockall
