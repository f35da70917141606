import Verif.Rt.System

/-! # Concurrent use of a static method

The expectations of a static method are in a `static EXPECTATIONS: Mutex<..>`.  Any number of threads
call it, add expectations to it, checkpoint it and drop a `Context` of it, all at the same time.

One step of this machine is acquiring the mutex, one operation of the code that runs with the guard,
releasing it, or one operation after that.  Between two steps of an operation any other operation can
make steps.  Simplifications: the inner locks of an expectation (`matcher`, `rfunc`) are taken and
released within one step, because they can only be reached through the guard of the outer mutex; the
sequences are only used by this method while the machine runs. -/

namespace Mockall

variable {V : Type}

/-- What a thread does with a static method: call it (F:541-563), `Context::expect` followed by a chain of
builder calls in one statement (F:1616-1621), `Context::checkpoint` (F:1595-1607), drop of a `Context` by
a thread that is not panicking, or by one that is (F:1631-1650). -/
inductive SOp (V : Type)
  | call (k : Key) (args : List V)
  | expect (k : Key) (bs : List (Build V))
  | checkpoint
  | dropContext
  | dropPanicking

/-- Where an operation is.  `i` is the position of an expectation in its vector. -/
inductive SPc (V : Type)
  /-- about to clear the poison flag, F:1635-1637 -/
  | clear
  /-- about to lock the mutex: F:549-550, F:1602-1604, F:1620 -/
  | wait
  /-- in `iter().find(..)`; about to evaluate the matcher of expectation `i`, F:2430-2433 -/
  | scan (i : Nat)
  /-- expectation `i` matches; about to evaluate `is_done`, F:2433 -/
  | check (i : Nat)
  /-- expectation `i` was found; about to increment the count, F:957, L:1587-1602 -/
  | inc (i : Nat)
  /-- about to check the sequence, F:964 -/
  | verify (i : Nat)
  /-- about to evaluate `is_satisfied`, F:965 -/
  | sat (i : Nat)
  /-- about to advance the sequence, F:966 -/
  | satisfy (i : Nat)
  /-- about to run the return function, F:2031-2037, F:2098-2103, F:2188-2194 -/
  | ret (i : Nat)
  /-- the call on the guard returned or panicked; about to release the mutex, F:559 -/
  | leave (r : Except Panic (Option V))
  /-- about to evaluate `.expect(&no_match_msg)`, F:560 -/
  | answer (r : Except Panic (Option V))
  /-- about to lock the mutex with `lock().map(..)`, F:1641-1643 -/
  | tryWait
  /-- about to push a new expectation, F:1437, F:1530-1538 -/
  | push
  /-- about to make the first of these builder calls on expectation `i`, F:1270-1408 -/
  | build (i : Nat) (bs : List (Build V))
  /-- the chain is over, or panicked; about to release the mutex -/
  | leaveExpect (i : Nat) (r : Except Panic Unit)
  /-- about to collect the expectations, F:1605-1606 -/
  | drain
  /-- about to release the mutex at the end of the `let` statement, F:1606 -/
  | leaveDrain (es : List (Expectation V))
  /-- dropping the collected expectations, F:1607; `p` is the panic raised by one of them, if any -/
  | dropping (p : Option Panic) (es : List (Expectation V))
  /-- over -/
  | done (o : Obs V)

/-- One operation: the thread that does it, what it is, and where it is. -/
structure SAct (V : Type) where
  tid : Nat
  op : SOp V
  pc : SPc V

/-- The method, the rest of the state its expectations refer to, which operation holds the mutex, and
all operations begun so far, oldest first. -/
structure SState (V : Type) where
  sf : StaticFn V
  world : World V
  held : Option Nat
  acts : List (SAct V)

/-- The vector of expectations reached by `self.0` (F:2430) or `store.get(&Key::new::<..>())` (F:2526-2531). -/
def Store.vec (k : Key) : Store V → List (Expectation V)
  | .concrete es => es
  | .generic m => (GMap.get m k).getD []

/-- Change the contents of that vector, if it exists. -/
def Store.setVec (k : Key) (es : List (Expectation V)) : Store V → Store V
  | .concrete _ => .concrete es
  | .generic m =>
    match GMap.get m k with
    | none => .generic m
    | some _ => .generic (GMap.put m k es)

/-- Append a new expectation, creating the vector if necessary: F:1216-1221, F:1530-1538. -/
def Store.push (k : Key) (e : Expectation V) : Store V → Store V
  | .concrete es => .concrete (es ++ [e])
  | .generic m => .generic (GMap.put m k ((GMap.get m k).getD [] ++ [e]))

/-- The panic of `lock().unwrap()` as seen by the caller. -/
def SOp.poisoned : SOp V → Obs V
  | .call _ _ => .value (.error .poisoned)
  | _ => .unit (.error .poisoned) false

/-- How an operation begins. -/
def SOp.start : SOp V → SPc V
  | .dropPanicking => .clear
  | _ => .wait

/-- Does the thread that does it panic already? -/
def SOp.panicking : SOp V → Bool
  | .dropPanicking => true
  | _ => false

/-- What comes after the lock was acquired. -/
def SOp.first : SOp V → SPc V
  | .call _ _ => .scan 0
  | .expect _ _ => .push
  | .checkpoint => .drain
  | .dropContext => .drain
  | .dropPanicking => .drain

/-- The key, the arguments of a call. -/
def SOp.key : SOp V → Key
  | .call k _ => k
  | .expect k _ => k
  | _ => 0

/-- See `SOp.key`. -/
def SOp.args : SOp V → List V
  | .call _ as => as
  | _ => []

/-- See `SOp.key`. -/
def SOp.chain : SOp V → List (Build V)
  | .expect _ bs => bs
  | _ => []

/-- Did it panic? -/
def panicked {α : Type} : Except Panic α → Bool
  | .ok _ => false
  | .error _ => true

/-- The ghost record of a dispatched call. -/
def World.hit (w : World V) (cx : Cx V) (gid : Nat) (args : List V) (passed : Bool) : World V :=
  { w with log := w.log ++ [⟨gid, cx.tid, args, passed, cx.upd⟩] }

/-- The context of an operation of thread `tid`. -/
def Env.cx (env : Env V) (tid : Nat) : Cx V := ⟨env.nightly, tid, env.dbg, id⟩

/-- One step of an operation that holds the mutex: the next place, and the new state of the method and
the world. -/
def SAct.inner (env : Env V) (act : SAct V) (sf : StaticFn V) (w : World V) : SPc V × StaticFn V × World V :=
  let k := act.op.key
  let args := act.op.args
  let cx := env.cx act.tid
  let info := sf.mi.fn k
  let es := sf.store.vec k
  let put (i : Nat) (e : Expectation V) : StaticFn V := { sf with store := sf.store.setVec k (es.set i e) }
  match act.pc with
  -- F:2430-2433
  | .scan i =>
    match es[i]? with
    | none => (.leave (.ok none), sf, w)
    | some e =>
      let o := e.matches cx.tid args
      (match o.1 with
        | .error p => .leave (.error p)
        | .ok true => .check i
        | .ok false => .scan (i + 1), put i o.2, w)
  -- F:2433
  | .check i =>
    match es[i]? with
    | none => (.leave (.ok none), sf, w)
    | some e =>
      match e.isDone with
      | .error p => (.leave (.error p), sf, w)
      | .ok d => (if !d || es.length == 1 then .inc i else .scan (i + 1), sf, w)
  -- F:957-963
  | .inc i =>
    match es[i]? with
    | none => (.leave (.ok none), sf, w)
    | some e =>
      let o := e.common.times.call
      let sf' := put i { e with common := { e.common with times := o.2 } }
      match o.1 with
      | .error p => (.leave (.error p), sf', w.hit cx e.gid args false)
      | .ok (.error m) =>
        let p : Panic := if e.common.mpoison then .poisoned else .call info.funcname e.common.matcher.display m
        (.leave (.error p), sf', w.hit cx e.gid args false)
      | .ok (.ok ()) => (.verify i, sf', w)
  -- F:964
  | .verify i =>
    match es[i]? with
    | none => (.leave (.ok none), sf, w)
    | some e =>
      match e.common.verifySequence w.seqs (callDesc cx info args) with
      | .error p => (.leave (.error p), sf, w.hit cx e.gid args false)
      | .ok () => (.sat i, sf, w)
  -- F:965
  | .sat i =>
    match es[i]? with
    | none => (.leave (.ok none), sf, w)
    | some e =>
      if e.common.times.isSatisfied ≠ .tooFew then (.satisfy i, sf, w)
      else (.ret i, sf, w.hit cx e.gid args true)
  -- F:966
  | .satisfy i =>
    match es[i]? with
    | none => (.leave (.ok none), sf, w)
    | some e =>
      let o := e.common.satisfySequence w.seqs
      match o.1 with
      | .error p => (.leave (.error p), sf, { w with seqs := o.2 }.hit cx e.gid args false)
      | .ok () => (.ret i, sf, { w with seqs := o.2 }.hit cx e.gid args true)
  -- F:2031-2037, F:2098-2103, F:2188-2194
  | .ret i =>
    match es[i]? with
    | none => (.leave (.ok none), sf, w)
    | some e =>
      let o := e.ret_call cx info args w
      (.leave (o.1.map some), put i o.2.1, o.2.2)
  -- F:1437, F:1530-1538
  | .push =>
    (.build es.length act.op.chain,
      { sf with store := sf.store.push k (Expectation.new env.nightly info w.fresh) },
      { w with fresh := w.fresh + 1 })
  -- F:1270-1408
  | .build i bs =>
    match es[i]?, bs with
    | none, _ => (.leaveExpect i (.ok ()), sf, w)
    | some _, [] => (.leaveExpect i (.ok ()), sf, w)
    | some e, b :: bs =>
      let o := e.build b w.seqs
      match o.1 with
      | .error p => (.leaveExpect i (.error p), put i o.2.1, { w with seqs := o.2.2 })
      | .ok () => (.build i bs, put i { o.2.1 with chain := e.chain ++ [b] }, { w with seqs := o.2.2 })
  -- F:1605-1606
  | .drain => (.leaveDrain (sf.store.elems env), { sf with store := sf.store.drained }, w)
  | pc => (pc, sf, w)

/-- One step of operation number `id`; `none` if it is over, or waits for the mutex. -/
def SAct.step (env : Env V) (id : Nat) (act : SAct V) (s : SState V) : Option (SState V) :=
  let goto (s : SState V) (pc : SPc V) : SState V := { s with acts := s.acts.set id { act with pc := pc } }
  match act.pc with
  -- `clear_poison` does not wait for the mutex
  | .clear => some (goto { s with sf := { s.sf with poison := false } } .tryWait)
  -- `lock()` of a poisoned mutex is an `Err`, which `map` and `let _` ignore
  | .tryWait =>
    match s.held with
    | some _ => none
    | none =>
      if s.sf.poison then some (goto s (.done (.unit (.ok ()) false)))
      else some (goto { s with held := some id } .drain)
  -- `lock()` waits while another thread has the mutex; on a poisoned mutex `unwrap` panics, and the guard in the error
  -- is released by unwinding
  | .wait =>
    match s.held with
    | some _ => none
    | none =>
      if s.sf.poison then some (goto s (.done act.op.poisoned))
      else some (goto { s with held := some id } act.op.first)
  -- the guard is dropped at the end of the block; unwinding with a live guard poisons, F:559
  | .leave r =>
    some (goto { s with sf := { s.sf with poison := panicked r }, held := none } (.answer r))
  -- F:560
  | .answer r =>
    some (goto s (.done (.value (expectMatch (env.cx act.tid) (s.sf.mi.fn act.op.key) act.op.args r))))
  | .leaveExpect i r =>
    some (goto { s with
      sf := { s.sf with poison := panicked r }
      held := none
      world := { s.world with made := s.world.made ++
        [(((s.sf.store.vec act.op.key)[i]?).map (·.chain)).getD []] } } (.done (.unit r false)))
  | .leaveDrain es => some (goto { s with held := none } (.dropping none es))
  -- the destructors of the collected expectations run one after the other; a panic in one of them does not keep the
  -- others from running, but a second panic aborts
  | .dropping p [] => some (goto s (.done (.unit (match p with | none => .ok () | some q => .error q) false)))
  | .dropping p (e :: es) =>
    match e.drop (act.op.panicking || p.isSome) s.sf.mi.base with
    | .ok () => some (goto s (.dropping p es))
    | .error q =>
      if act.op.panicking || p.isSome then some (goto s (.done (.unit (.error (p.getD q)) true)))
      else some (goto s (.dropping (some q) es))
  | .done _ => none
  | _ =>
    let o := act.inner env s.sf s.world
    some (goto { s with sf := o.2.1, world := o.2.2 } o.1)

/-- What the scheduler does next: a thread begins an operation, or operation number `id` makes a step. -/
inductive SSched (V : Type)
  | start (tid : Nat) (op : SOp V)
  | step (id : Nat)

/-- Is the operation over? -/
def SAct.finished (act : SAct V) : Bool := match act.pc with | .done _ => true | _ => false

/-- One scheduling decision.  A thread does one operation at a time. -/
def SState.step (env : Env V) (s : SState V) : SSched V → SState V
  | .start tid op =>
    if s.acts.all fun a => a.finished || a.tid != tid then { s with acts := s.acts ++ [⟨tid, op, op.start⟩] } else s
  | .step id =>
    match s.acts[id]? with
    | none => s
    | some act => (act.step env id s).getD s

/-- Run a schedule. -/
def SState.run (env : Env V) (sch : List (SSched V)) (s : SState V) : SState V := sch.foldl (SState.step env) s

end Mockall
