import Verif.Rt.Times
import Verif.Rt.Sequence
import Verif.Rt.Matcher
import Verif.Rt.Rfunc

/-! # `Common` and the three `Expectation` structs (F:892-1064, F:1997-2326) -/

namespace Mockall

variable {V : Type}

/-- One execution of a user supplied return closure. -/
structure Run (V : Type) where
  tag : Nat
  tid : Nat
  args : List V

/-- One call dispatched to an expectation (the expectation with ghost name `gid` was selected and
`Expectation::call` entered): `passed` says whether it got through the count and sequence checks of
`Common::call`; `upd` is what the caller writes through a returned `&mut` reference. -/
structure Hit (V : Type) where
  gid : Nat
  tid : Nat
  args : List V
  passed : Bool
  upd : V → V

/-- A call of one of the configuration methods of an expectation: F:1109-1189 (common),
F:2040-2045 (ref), F:2106-2134 (refMut), F:2197-2309 (static).  `tid` arguments are the thread
performing the configuration (captured by `Fragile::new`). -/
inductive Build (V : Type)
  | times (a : TimesArg)
  | once
  | never
  | inSequence (sid : Nat)
  | with (ps : List (Pred V))
  | withf (f : List V → Except Panic Bool)
  | withfSt (tid : Nat) (f : List V → Except Panic Bool)
  | returning (f : Closure V)
  | returningSt (tid : Nat) (f : Closure V)
  | returnConst (v : V)
  | returnConstSt (tid : Nat) (v : V)
  | returnOnce (f : OnceClosure V)
  | returnOnceSt (tid : Nat) (f : OnceClosure V)
  | returnVar (v : V)

/-- State shared by all mocks: the sequences, and ghost state, written but never read by the code:
the number of expectations created so far and the successful builder calls made on each, the calls dispatched to expectations so far, and the user
supplied return closures executed so far (oldest first). -/
structure World (V : Type) where
  seqs : Seqs
  fresh : Nat
  made : List (List (Build V))
  log : List (Hit V)
  runs : List (Run V)

/-- `struct Common`, F:936-940.  `mpoison` is the poison flag of `matcher: Mutex<Matcher>`. -/
structure Common (V : Type) where
  matcher : Matcher V
  mpoison : Bool
  seqHandle : Option SeqHandle
  times : Times

/-- `impl Default for Common`, F:942-952. -/
def Common.dflt : Common V := ⟨.dflt, false, none, .dflt⟩

/-- `Common::verify_sequence`, F:1029-1033. -/
def Common.verifySequence (c : Common V) (w : Seqs) (desc : String) : Except Panic Unit :=
  match c.seqHandle with
  | some h => w.verify h desc
  | none => .ok ()

/-- `Common::satisfy_sequence`, F:995-999. -/
def Common.satisfySequence (c : Common V) (w : Seqs) : Except Panic Unit × Seqs :=
  match c.seqHandle with
  | some h => w.satisfy h
  | none => (.ok (), w)

/-- `Common::call`, F:956-968. -/
def Common.call (func desc : String) (c : Common V) (w : Seqs) :
    Except Panic Unit × Common V × Seqs :=
  match c.times.call with
  | (.error p, t) => (.error p, { c with times := t }, w)
  | (.ok (.error m), t) =>
    -- formatting the message locks the matcher first
    let p : Panic := if c.mpoison then .poisoned else .call func c.matcher.display m
    (.error p, { c with times := t }, w)
  | (.ok (.ok ()), t) =>
    let c' := { c with times := t }
    match c'.verifySequence w desc with
    | .error p => (.error p, c', w)
    | .ok () =>
      if c'.times.isSatisfied ≠ .tooFew then
        let (r, w') := c'.satisfySequence w
        (r, c', w')
      else (.ok (), c', w)

/-- `Common::in_sequence`, F:970-977. -/
def Common.inSequence (c : Common V) (w : Seqs) (sid : Nat) :
    Except Panic Unit × Common V × Seqs :=
  if c.times.isExact then
    let (h, w') := w.nextHandle sid
    (.ok (), { c with seqHandle := some h }, w')
  else (.error .onlyExact, c, w)

/-- `Common::is_done`, F:979-981. -/
def Common.isDone (c : Common V) : Except Panic Bool := c.times.isDone

/-- `Common::matches`, F:983-987.  The matcher's lock is held while user predicates run, so a panic
in one of them poisons it.  (Simplification: the calling thread is not already panicking.) -/
def Common.matches (tid : Nat) (c : Common V) (args : List V) : Except Panic Bool × Common V :=
  if c.mpoison then (.error .poisoned, c)
  else match c.matcher.matches tid args with
    | .ok b => (.ok b, c)
    | .error p => (.error p, { c with mpoison := true })

/-- `impl Drop for Common`, F:1036-1061.  `panicking` is `std::thread::panicking()`. -/
def Common.drop (panicking : Bool) (func : String) (c : Common V) : Except Panic Unit :=
  if panicking then .ok ()
  else if c.mpoison then .error .poisoned
  else match c.times.isSatisfied with
    | .tooFew => .error (.tooFewAtDrop func c.matcher.display c.times.count c.times.minimum)
    | .tooMany =>
      match c.times.maximum with
      | .error p => .error p
      | .ok m => .error (.tooManyAtDrop func c.matcher.display c.times.count m)
    | .satisfied => .ok ()

/-- The `rfunc` field of the three `Expectation` structs: F:2020-2023 (ref), F:2085-2088 (refMut),
F:2175-2178 (static, inside a `Mutex`, here with its poison flag). -/
inductive Ret (V : Type)
  | ref (r : RefRfunc V)
  | refMut (r : RefMutRfunc V)
  | static (r : StaticRfunc V) (poison : Bool)

/-- `struct Expectation`, F:2020-2023, F:2085-2088, F:2175-2178.  `gid`, `info` and
`chain` are ghosts, never read by the code: the ordinal of the `expect` call that created it, the
function it was created for, and the builder calls that have configured it so far (those that did not
panic). -/
structure Expectation (V : Type) where
  gid : Nat
  info : FnInfo V
  chain : List (Build V)
  common : Common V
  ret : Ret V

/-- `impl Default for Expectation` with `Rfunc::default()`: F:2049-2058 and F:1806-1814 (ref),
F:2138-2147 and F:1897-1905 (refMut), F:2312-2321 and F:1988-1992 (static). -/
def Expectation.new (nightly : Bool) (info : FnInfo V) (gid : Nat) : Expectation V :=
  { gid := gid
    info := info
    chain := []
    common := .dflt
    ret := match info.kind with
      | .ref => .ref (.dflt (maybeReturnDefault nightly info.default))
      | .refMut => .refMut (.dflt (maybeReturnDefault nightly info.default))
      | .static => .static .dflt false }

/-- `(&&ArgPrinter(&arg)).debug_string()`, L:1477-1510: method lookup finds `ViaDebug` first, which
prints the `Debug` form, if the argument's type is known to implement `Debug`, and otherwise
`ViaNothing`, which prints `?`.  `debug v` is the `Debug` form of `v` if its (static) type has one. -/
def argPrinter (debug : V → Option String) (v : V) : String :=
  match debug v with
  | some s => s
  | none => "?"

/-- `desc()`, F:632-643: `Name::fn(arg, arg)`. -/
def callDesc (cx : Cx V) (info : FnInfo V) (args : List V) : String :=
  info.descname ++ "(" ++ ", ".intercalate (args.map cx.dbg) ++ ")"

/-- The log entry for an executed closure, if one was entered. -/
def runEntry (cx : Cx V) (args : List V) : Option Nat → List (Run V)
  | none => []
  | some tag => [⟨tag, cx.tid, args⟩]

/-- What `Expectation::call` does after `common.call` returned: produce the value.
F:2031-2037 (ref), F:2098-2103 (refMut), F:2188-2194 (static). -/
def Expectation.ret_call (cx : Cx V) (info : FnInfo V) (args : List V) (e : Expectation V)
    (w : World V) : Except Panic V × Expectation V × World V :=
  let fail (m : RetErr) : Panic :=
    if e.common.mpoison then .poisoned else .ret info.funcname e.common.matcher.display m
  match e.ret with
  | .ref r =>
    match r.call cx.nightly with
    | .ok v => (.ok v, e, w)
    | .error m => (.error (fail m), e, w)
  | .refMut r =>
    -- `let desc = format!("{}", self.common.matcher.lock().unwrap());` comes first
    if e.common.mpoison then (.error .poisoned, e, w)
    else
      let o := r.callMut cx.nightly cx.tid args
      let e' := { e with ret := .refMut o.next }
      let w' := { w with runs := w.runs ++ runEntry cx args o.ran }
      match o.out with
      -- the caller's write through the returned reference is part of the step
      | .ok (.ok v) => (.ok v, { e with ret := .refMut (o.next.write (cx.upd v)) }, w')
      | .ok (.error m) => (.error (fail m), e', w')
      | .error p => (.error p, e', w')
  | .static r poison =>
    if poison then (.error .poisoned, e, w)
    else
      let o := r.callMut cx.nightly info.default cx.tid args
      let w' := { w with runs := w.runs ++ runEntry cx args o.ran }
      match o.out with
      | .ok (.ok v) => (.ok v, { e with ret := .static o.next false }, w')
      -- the guard of the `rfunc` mutex is alive during both kinds of panic
      | .ok (.error m) => (.error (fail m), { e with ret := .static o.next true }, w')
      | .error p => (.error p, { e with ret := .static o.next true }, w')

/-- `Expectation::call`/`call_mut`: F:2027-2038 (ref), F:2092-2104 (refMut), F:2183-2195 (static). -/
def Expectation.call (cx : Cx V) (info : FnInfo V) (args : List V) (e : Expectation V)
    (w : World V) : Except Panic V × Expectation V × World V :=
  match e.common.call info.funcname (callDesc cx info args) w.seqs with
  | (.error p, c, s) =>
    (.error p, { e with common := c },
      { w with seqs := s, log := w.log ++ [⟨e.gid, cx.tid, args, false, cx.upd⟩] })
  | (.ok (), c, s) =>
    Expectation.ret_call cx info args { e with common := c }
      { w with seqs := s, log := w.log ++ [⟨e.gid, cx.tid, args, true, cx.upd⟩] }

/-- `Expectation::matches`, F:1123-1128. -/
def Expectation.matches (tid : Nat) (e : Expectation V) (args : List V) :
    Except Panic Bool × Expectation V :=
  let o := e.common.matches tid args
  (o.1, { e with common := o.2 })

/-- `Expectation::is_done`, F:1117-1119. -/
def Expectation.isDone (e : Expectation V) : Except Panic Bool := e.common.isDone

/-- Dropping an `Expectation` drops its `common`; its `rfunc` has no verification. -/
def Expectation.drop (panicking : Bool) (info : FnInfo V) (e : Expectation V) :
    Except Panic Unit :=
  e.common.drop panicking info.funcname

/-! ## The builder methods -/

/-- The closure `move |..| c.clone().into()` built by `return_const` (F:2213, F:2240).
`Clone`/`Into` are taken to be pure. -/
def constClosure (v : V) : Closure V := { run := fun _ _ => .ok v }

/-- Replace the matcher: `with` F:927-932, `withf` F:1011-1018, `withf_st` F:1020-1027.  They lock
the matcher (`.lock().unwrap()`). -/
def Expectation.setMatcher (e : Expectation V) (m : Matcher V) : Except Panic Unit × Expectation V :=
  if e.common.mpoison then (.error .poisoned, e)
  else (.ok (), { e with common := { e.common with matcher := m } })

/-- Replace the return function of a static expectation (locks `rfunc`): F:2247-2309. -/
def Expectation.setStatic (e : Expectation V) (r : StaticRfunc V) : Except Panic Unit × Expectation V :=
  match e.ret with
  | .static _ true => (.error .poisoned, e)
  | .static _ false => (.ok (), { e with ret := .static r false })
  | _ => (.ok (), e)

/-- One builder call.  Combinations that do not type-check in Rust (e.g. `return_var` on an
expectation that returns by value) cannot be written by the user; the model leaves the expectation
alone for them. -/
def Expectation.build (b : Build V) (e : Expectation V) (w : Seqs) :
    Except Panic Unit × Expectation V × Seqs :=
  match b with
  | .times a =>
    let (r, t) := e.common.times.times a
    (r, { e with common := { e.common with times := t } }, w)
  -- F:1143-1145: `once` is `times(1)`
  | .once =>
    let (r, t) := e.common.times.times (.n 1)
    (r, { e with common := { e.common with times := t } }, w)
  | .never => (.ok (), { e with common := { e.common with times := e.common.times.never } }, w)
  | .inSequence sid =>
    let (r, c, w') := e.common.inSequence w sid
    (r, { e with common := c }, w')
  | .with ps => let (r, e') := e.setMatcher (.pred ps); (r, e', w)
  | .withf f => let (r, e') := e.setMatcher (.func f); (r, e', w)
  | .withfSt t f => let (r, e') := e.setMatcher (.funcSt t f); (r, e', w)
  | .returning f =>
    match e.ret with
    | .refMut _ => (.ok (), { e with ret := .refMut (.mut f none) }, w)
    | .static _ _ => let (r, e') := e.setStatic (.mut f); (r, e', w)
    | .ref _ => (.ok (), e, w)
  | .returningSt t f =>
    match e.ret with
    | .refMut _ => (.ok (), { e with ret := .refMut (.mutSt t f none) }, w)
    | .static _ _ => let (r, e') := e.setStatic (.mutSt t f); (r, e', w)
    | .ref _ => (.ok (), e, w)
  | .returnConst v =>
    match e.ret with
    | .ref _ => (.ok (), { e with ret := .ref (.const v) }, w)
    | .static _ _ => let (r, e') := e.setStatic (.mut (constClosure v)); (r, e', w)
    | .refMut _ => (.ok (), e, w)
  | .returnConstSt t v =>
    match e.ret with
    | .static _ _ => let (r, e') := e.setStatic (.mutSt t (constClosure v)); (r, e', w)
    | _ => (.ok (), e, w)
  | .returnOnce f =>
    match e.ret with
    | .static _ _ => let (r, e') := e.setStatic (.once f); (r, e', w)
    | _ => (.ok (), e, w)
  | .returnOnceSt t f =>
    match e.ret with
    | .static _ _ => let (r, e') := e.setStatic (.onceSt t f); (r, e', w)
    | _ => (.ok (), e, w)
  | .returnVar v =>
    match e.ret with
    | .refMut _ => (.ok (), { e with ret := .refMut (.var v) }, w)
    | _ => (.ok (), e, w)

/-- A chain of builder calls `e.a(..).b(..)...`; a panic stops the chain. -/
def Expectation.builds : List (Build V) → Expectation V → Seqs →
    Except Panic Unit × Expectation V × Seqs
  | [], e, w => (.ok (), e, w)
  | b :: bs, e, w =>
    match e.build b w with
    | (.error p, e', w') => (.error p, e', w')
    | (.ok (), e', w') => Expectation.builds bs { e' with chain := e.chain ++ [b] } w'

end Mockall
