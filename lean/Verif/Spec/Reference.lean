import Verif.Spec.Messages
import Verif.Rt.System

/-! # A reference semantics

What a program sees of its mock objects, static methods and sequences, told the way a user would: an
expectation is the builder calls that made it and what has happened to it since.  There are no locks, atomics,
hash maps, return function states or scans here.  `Op` and `Obs` are the operations of a program and what it sees
of them (`Rt/System.lean`). -/

namespace Mockall.Spec.Ref

variable {V : Type}

/-- An expectation. -/
structure Exp (V : Type) where
  /-- the builder calls made on it -/
  chain : List (Build V) := []
  /-- the sequence it is in, and its place there -/
  place : Option (Nat × Nat) := none
  /-- the calls directed at it so far, rejected ones too -/
  attempts : Nat := 0
  /-- the arguments that its return function was asked about so far, oldest first -/
  past : List (List V) := []
  /-- what was last written through a returned `&mut` -/
  written : Option V := none
  /-- one of its predicates has panicked: it is unusable -/
  badMatcher : Bool := false
  /-- its return function has panicked: it gives no values any more -/
  badReturn : Bool := false

/-- The least number of calls. -/
def Exp.lo (e : Exp V) : Nat := (halfOpen (countArg e.chain)).start

/-- The first number of calls that is too many. -/
def Exp.top (e : Exp V) : Nat := (halfOpen (countArg e.chain)).end_

/-! ## Making an expectation -/

/-- The reason why `times` refuses an argument. -/
def refuseTimes : TimesArg → Option Panic
  | .n n => if n = usizeMax then some .addOverflow else none
  | .range a b => if a < b then none else some .backwardsRange
  | .rangeInclusive a b =>
    if b < a then some .backwardsRange else if b = usizeMax then some .addOverflow else none
  | .rangeToInclusive b => if b = usizeMax then some .addOverflow else none
  | _ => none

/-- The reason why a builder call is refused: `in_sequence` wants an exact number of calls. -/
def Exp.refuse (e : Exp V) : Build V → Option Panic
  | .times a => refuseTimes a
  | .inSequence _ => if e.top = e.lo + 1 then none else some .onlyExact
  | _ => none

/-- The places taken in each sequence, or whose turn it is. -/
abbrev Counts := Nat → Nat

/-- One more. -/
def Counts.bump (c : Counts) (i : Nat) : Counts := fun j => if j = i then c j + 1 else c j

/-- A chain of builder calls, until the first one that is refused. -/
def Exp.configure (e : Exp V) (joined : Counts) : List (Build V) → Except Panic Unit × Exp V × Counts
  | [] => (.ok (), e, joined)
  | b :: bs =>
    match e.refuse b with
    | some p => (.error p, e, joined)
    | none =>
      match b with
      | .inSequence sid =>
        configure { e with chain := e.chain ++ [b], place := some (sid, joined sid) } (joined.bump sid) bs
      | _ => configure { e with chain := e.chain ++ [b] } joined bs

/-! ## Values -/

/-- The builder calls that set the value of a method: `returning` and its like for methods that return owned
values, `return_const` for those that return `&T`, `return_var` and `returning` for those that return `&mut T`. -/
def sets : RetKind → Build V → Bool
  | .static, .returning _ | .static, .returningSt _ _ | .static, .returnConst _ | .static, .returnConstSt _ _
  | .static, .returnOnce _ | .static, .returnOnceSt _ _ => true
  | .ref, .returnConst _ => true
  | .refMut, .returning _ | .refMut, .returningSt _ _ | .refMut, .returnVar _ => true
  | _, _ => false

/-- The builder call that says what to return: the last one that does. -/
def Exp.answer (kind : RetKind) (e : Exp V) : Option (Build V) := (e.chain.filter (sets kind)).getLast?

/-- What is fixed for one call: the `nightly` feature, the function, the thread, the arguments, and what the caller
does to a returned `&mut`. -/
structure Call (V : Type) where
  nightly : Bool
  fn : FnInfo V
  dbg : V → String
  tid : Nat
  args : List V
  upd : V → V

/-- The value of an unconfigured expectation. -/
def Call.default (c : Call V) : Option V := if c.nightly then c.fn.default else none

/-- The call as messages show it. -/
def Call.text (c : Call V) : String := callText c.fn.descname (c.args.map c.dbg)

/-- The panic of an expectation that has no value to give. -/
def Exp.fails (c : Call V) (e : Exp V) (m : RetErr) : Panic := .ret c.fn.funcname (describe e.chain) m

/-- There is no value and no default. -/
def Exp.unset (c : Call V) (e : Exp V) : Panic := e.fails c (if c.nightly then .noDefault else .needNightly)

/-- The value of a call to a method that returns an owned value. -/
def Exp.owned (c : Call V) (e : Exp V) : Except Panic V :=
  match e.answer .static with
  | some (.returning f) => f.run (f.hist ++ e.past) c.args
  | some (.returningSt t f) => if c.tid = t then f.run (f.hist ++ e.past) c.args else .error .fragile
  | some (.returnConst v) => .ok v
  | some (.returnConstSt t v) => if c.tid = t then .ok v else .error .fragile
  | some (.returnOnce f) => if e.past = [] then f.run c.args else .error (e.fails c .twice)
  | some (.returnOnceSt t f) =>
    if e.past ≠ [] then .error (e.fails c .twice)
    else if c.tid = t then f.run c.args else .error .fragileMove
  | _ =>
    match c.default with
    | some v => .ok v
    | none => .error (e.unset c)

/-- An accepted call: the value, and the expectation afterwards. -/
def Exp.reply (c : Call V) (e : Exp V) : Except Panic V × Exp V :=
  let asked := { e with past := e.past ++ [c.args] }
  let lend (v : V) : Except Panic V × Exp V :=
    (.ok (e.written.getD v), { e with written := some (c.upd (e.written.getD v)) })
  match c.fn.kind with
  | .ref =>
    match e.answer .ref, c.default with
    | some (.returnConst v), _ => (.ok v, e)
    | _, some v => (.ok v, e)
    | _, none => (.error (e.unset c), e)
  | .refMut =>
    match e.answer .refMut, c.default with
    | some (.returning f), _ => (f.run (f.hist ++ e.past) c.args, asked)
    | some (.returningSt t f), _ =>
      if c.tid = t then (f.run (f.hist ++ e.past) c.args, asked) else (.error .fragile, e)
    | some (.returnVar v), _ => lend v
    | _, some v => lend v
    | _, none => (.error (e.unset c), e)
  | .static =>
    if e.badReturn then (.error .poisoned, e)
    else
      match e.owned c with
      | .ok v => (.ok v, asked)
      | .error p => (.error p, { asked with badReturn := true })

/-! ## Calls -/

/-- The call stops at this expectation: it takes the call, or panics.  `sole`: it is the only one. -/
def Exp.stops (c : Call V) (sole : Bool) (e : Exp V) : Bool :=
  e.badMatcher ||
    match verdict c.tid c.args e.chain with
    | .error _ => true
    | .ok false => false
    | .ok true => sole || e.top == 0 || decide (e.attempts + 1 < e.top)

/-- What happens at the expectation where the call stops; `turn` says whose turn it is in each sequence. -/
def Exp.take (c : Call V) (turn : Counts) (e : Exp V) : Except Panic V × Exp V × Counts :=
  if e.badMatcher then (.error .poisoned, e, turn)
  else
    match verdict c.tid c.args e.chain with
    | .error p => (.error p, { e with badMatcher := true }, turn)
    | .ok _ =>
      if e.top = 0 then (.error .subOverflow, e, turn)
      else
        let e := { e with attempts := e.attempts + 1 }
        if e.top ≤ e.attempts then
          (.error (.call c.fn.funcname (describe e.chain)
            (if e.top = 1 then .shouldNot else .tooMany e.attempts (e.top - 1))), e, turn)
        else
          match e.place with
          | none => ((e.reply c).1, (e.reply c).2, turn)
          | some (sid, pos) =>
            if turn sid = pos then
              ((e.reply c).1, (e.reply c).2, if e.lo ≤ e.attempts then turn.bump sid else turn)
            else (.error (.seqViolation c.text), e, turn)

/-- A call to a method with these expectations: it goes to the first one that stops it.  `none`: there is none. -/
def dispatch (c : Call V) (turn : Counts) (es : List (Exp V)) :
    Option (Except Panic V × List (Exp V) × Counts) := do
  let i ← es.findIdx? (·.stops c (es.length == 1))
  let e ← es[i]?
  let r := e.take c turn
  return (r.1, es.set i r.2.1, r.2.2)

/-! ## Methods -/

/-- A method: its expectations, separate for each choice of type arguments. -/
structure Meth (V : Type) where
  mi : MethodInfo V
  exps : Key → List (Exp V)

/-- Methods without type arguments have one list of expectations. -/
def Meth.key (m : Meth V) (k : Key) : Key := if m.mi.generic then k else 0

/-- The function with these type arguments. -/
def Meth.fn (m : Meth V) (k : Key) : FnInfo V := { m.mi.base with default := m.mi.dflt (m.key k) }

/-- A new method. -/
def Meth.new (mi : MethodInfo V) : Meth V := ⟨mi, fun _ => []⟩

/-- Replace the expectations for one choice of type arguments. -/
def Meth.put (m : Meth V) (k : Key) (es : List (Exp V)) : Meth V :=
  { m with exps := fun j => if j = m.key k then es else m.exps j }

/-- The expectations for one choice of type arguments. -/
def Meth.get (m : Meth V) (k : Key) : List (Exp V) := m.exps (m.key k)

/-- The expectations in the order in which they are verified; `ks` is the order of the type arguments. -/
def Meth.pending (ks : List Key) (m : Meth V) : List (Exp V) :=
  if m.mi.generic then ks.flatMap m.exps else m.exps 0

/-- `ks` is an order of the type arguments of a method. -/
def Meth.Orders (m : Meth V) (ks : List Key) : Prop :=
  m.mi.generic = true → ks.Nodup ∧ ∀ k, m.exps k ≠ [] → k ∈ ks

/-! ## Verification -/

/-- What is wrong with an expectation that will get no more calls. -/
def Exp.fault (fn : FnInfo V) (e : Exp V) : Option Panic :=
  if e.badMatcher then some .poisoned
  else if e.attempts < e.lo then some (.tooFewAtDrop fn.funcname (describe e.chain) e.attempts e.lo)
  else if e.attempts < e.top then none
  else if e.top = 0 then some .subOverflow
  else some (.tooManyAtDrop fn.funcname (describe e.chain) e.attempts (e.top - 1))

/-- The first thing wrong with a method. -/
def Meth.fault (ks : List Key) (m : Meth V) : Option Panic := (m.pending ks).findSome? (·.fault m.mi.base)

/-- Nothing wrong, or a panic. -/
def outcome : Option Panic → Except Panic Unit
  | none => .ok ()
  | some p => .error p

/-- The first thing wrong with an object. -/
def fault (ks : Nat → List Key) (ms : List (Meth V)) : Option Panic :=
  ms.zipIdx.findSome? fun x => x.1.fault (ks x.2)

/-- `checkpoint()` of an object: the methods up to the first one with something wrong lose their expectations. -/
def checkpoint (ks : Nat → List Key) (ms : List (Meth V)) : List (Meth V) :=
  let n := ms.zipIdx.findIdx fun x => (x.1.fault (ks x.2)).isSome
  ms.mapIdx fun i m => if i ≤ n then Meth.new m.mi else m

/-! ## Programs -/

/-- The state of a program: objects (`none` once dropped), static methods (with a flag: a panic has made the
method unusable), the places taken in each sequence, and whose turn it is. -/
structure St (V : Type) where
  objs : List (Option (List (Meth V)))
  statics : List (Meth V × Bool)
  joined : Counts
  turn : Counts

/-- The start of a program. -/
def St.init (sts : List (MethodInfo V)) : St V := ⟨[], sts.map fun mi => (.new mi, false), fun _ => 0, fun _ => 0⟩

/-- `checkpoint()` of one static method. -/
def scheckpoint (ks : List Key) (f : Meth V × Bool) : Except Panic Unit × (Meth V × Bool) :=
  if f.2 then (.error .poisoned, f) else (outcome (f.1.fault ks), (.new f.1.mi, false))

/-- `checkpoint()` of a mocked module with these functions: each of them until one panics. -/
def mcheckpoint (ks : Nat → List Key) : List Nat → List (Meth V × Bool) →
    Option (Except Panic Unit) × List (Meth V × Bool)
  | [], ms => (some (.ok ()), ms)
  | f :: fs, ms =>
    match ms[f]? with
    | none => (none, ms)
    | some m =>
      match scheckpoint (ks f) m with
      | (.error p, m') => (some (.error p), ms.set f m')
      | (.ok (), m') => mcheckpoint ks fs (ms.set f m')

/-- A panic. -/
def panicked {α : Type} : Except Panic α → Bool
  | .ok _ => false
  | .error _ => true

/-- One operation: what the program sees, and the state afterwards.  `ks i` is the order of the type arguments of
the `i`-th method of the object, or of the `i`-th static method. -/
def St.step (nightly : Bool) (dbg : V → String) (ks : Nat → List Key) (s : St V) : Op V → Obs V × St V
  | .new ms => (.unit (.ok ()) false, { s with objs := s.objs ++ [some (ms.map Meth.new)] })
  | .expect o m k bs =>
    match s.objs[o]? with
    | some (some ms) =>
      match ms[m]? with
      | some x =>
        let r := Exp.configure {} s.joined bs
        (.unit r.1 false,
          { s with objs := s.objs.set o (some (ms.set m (x.put k (x.get k ++ [r.2.1])))), joined := r.2.2 })
      | none => (.invalid, s)
    | _ => (.invalid, s)
  | .call o m k tid args upd =>
    match s.objs[o]? with
    | some (some ms) =>
      match ms[m]? with
      | some x =>
        let c : Call V := ⟨nightly, x.fn k, dbg, tid, args, upd⟩
        match dispatch c s.turn (x.get k) with
        | some r =>
          (.value r.1, { s with objs := s.objs.set o (some (ms.set m (x.put k r.2.1))), turn := r.2.2 })
        | none => (.value (.error (.noMatch c.text)), s)
      | none => (.invalid, s)
    | _ => (.invalid, s)
  | .checkpoint o =>
    match s.objs[o]? with
    | some (some ms) =>
      (.unit (outcome (fault ks ms)) false, { s with objs := s.objs.set o (some (checkpoint ks ms)) })
    | _ => (.invalid, s)
  | .drop o panicking =>
    match s.objs[o]? with
    | some (some ms) =>
      (.unit (if panicking then .ok () else outcome (fault ks ms)) false, { s with objs := s.objs.set o none })
    | _ => (.invalid, s)
  | .sexpect f k bs =>
    match s.statics[f]? with
    | some (_, true) => (.unit (.error .poisoned) false, s)
    | some (x, false) =>
      let r := Exp.configure {} s.joined bs
      (.unit r.1 false,
        { s with statics := s.statics.set f (x.put k (x.get k ++ [r.2.1]), panicked r.1), joined := r.2.2 })
    | none => (.invalid, s)
  | .scall f k tid args =>
    match s.statics[f]? with
    | some (_, true) => (.value (.error .poisoned), s)
    | some (x, false) =>
      let c : Call V := ⟨nightly, x.fn k, dbg, tid, args, id⟩
      match dispatch c s.turn (x.get k) with
      | some r =>
        (.value r.1,
          { s with
            statics := s.statics.set f (x.put k r.2.1, panicked r.1)
            turn := r.2.2 })
      | none => (.value (.error (.noMatch c.text)), s)
    | none => (.invalid, s)
  | .scheckpoint f =>
    match s.statics[f]? with
    | some x =>
      let r := scheckpoint (ks f) x
      (.unit r.1 false, { s with statics := s.statics.set f r.2 })
    | none => (.invalid, s)
  | .sdrop f panicking =>
    match s.statics[f]? with
    | some x =>
      let r := if panicking then (.ok (), (.new x.1.mi, false)) else scheckpoint (ks f) x
      (.unit r.1 false, { s with statics := s.statics.set f r.2 })
    | none => (.invalid, s)
  | .mcheckpoint fs =>
    let r := mcheckpoint ks fs s.statics
    (match r.1 with | some u => .unit u false | none => .invalid, { s with statics := r.2 })

/-- The methods that an operation may verify. -/
def St.verified (s : St V) : Op V → List (Meth V)
  | .checkpoint o | .drop o _ => ((s.objs[o]?).getD none).getD []
  | .scheckpoint _ | .sdrop _ _ | .mcheckpoint _ => s.statics.map (·.1)
  | _ => []

/-- The order in which the type arguments of generic methods are verified is not specified: `ks` is one. -/
def St.Orders (s : St V) (op : Op V) (ks : Nat → List Key) : Prop :=
  ∀ (i : Nat) (m : Meth V), (s.verified op)[i]? = some m → m.Orders (ks i)

/-- A program can see this. -/
inductive Runs (nightly : Bool) (dbg : V → String) : St V → List (Op V) → List (Obs V) → Prop
  | nil (s) : Runs nightly dbg s [] []
  | cons (s op ks) {ops os} (hk : s.Orders op ks) (h : Runs nightly dbg (s.step nightly dbg ks op).2 ops os) :
    Runs nightly dbg s (op :: ops) ((s.step nightly dbg ks op).1 :: os)

/-- What a program without generic methods sees: nothing is left open. -/
def run (nightly : Bool) (dbg : V → String) : St V → List (Op V) → List (Obs V)
  | _, [] => []
  | s, op :: ops =>
    let r := s.step nightly dbg (fun _ => []) op
    r.1 :: run nightly dbg r.2 ops

/-- The operation makes no mock object with a generic method. -/
def Plain : Op V → Prop
  | .new ms => ∀ mi ∈ ms, mi.generic = false
  | _ => True

end Mockall.Spec.Ref
