import Verif.Rt.Expectation

/-! # Collections of expectations (F:1191-1236, F:2328-2546) and the mock method (F:474-578) -/

namespace Mockall

variable {V : Type}

/-- `Expectations::call`/`call_mut`: F:2349-2360 (ref), F:2387-2399 (refMut), F:2426-2437 (static).
`find` scans in order; for each element it evaluates `matches` and only if that is true `is_done`
(unless `len == 1` makes it irrelevant, but `||` evaluates `is_done` first).  `n` is the length of
the whole vector.  `find` and the subsequent `map(call)` are fused into one scan. -/
def callScan (cx : Cx V) (info : FnInfo V) (args : List V) (n : Nat) :
    List (Expectation V) → World V → Except Panic (Option V) × List (Expectation V) × World V
  | [], w => (.ok none, [], w)
  | e :: es, w =>
    match e.matches cx.tid args with
    | (.error p, e') => (.error p, e' :: es, w)
    | (.ok false, e') =>
      let (r, es', w') := callScan cx info args n es w
      (r, e' :: es', w')
    | (.ok true, e') =>
      match e'.isDone with
      | .error p => (.error p, e' :: es, w)
      | .ok done =>
        if !done || n == 1 then
          match e'.call cx info args w with
          | (.ok v, e'', w') => (.ok (some v), e'' :: es, w')
          | (.error p, e'', w') => (.error p, e'' :: es, w')
        else
          let (r, es', w') := callScan cx info args n es w
          (r, e' :: es', w')

/-- `Expectations::call`, see `callScan`. -/
def Expectations.call (cx : Cx V) (info : FnInfo V) (args : List V) (es : List (Expectation V))
    (w : World V) : Except Panic (Option V) × List (Expectation V) × World V :=
  callScan cx info args es.length es w

/-- The body of the mock method: `....call(args).expect(&no_match_msg)`, F:568-575. -/
def expectMatch (cx : Cx V) (info : FnInfo V) (args : List V) :
    Except Panic (Option V) → Except Panic V
  | .error p => .error p
  | .ok none => .error (.noMatch (callDesc cx info args))
  | .ok (some v) => .ok v

/-- Calling a (non generic, non static) mock method, F:568-575. -/
def Expectations.method (cx : Cx V) (info : FnInfo V) (args : List V) (es : List (Expectation V))
    (w : World V) : Except Panic V × List (Expectation V) × World V :=
  let (r, es', w') := Expectations.call cx info args es w
  (expectMatch cx info args r, es', w')

/-- `Expectations::expect` (F:1216-1221) followed by a chain of builder calls on the new
expectation.  If the chain panics, the partly configured expectation stays. -/
def Expectations.expect (nightly : Bool) (info : FnInfo V) (bs : List (Build V))
    (es : List (Expectation V)) (w : World V) : Except Panic Unit × List (Expectation V) × World V :=
  let (r, e, q) := Expectation.builds bs (Expectation.new nightly info w.fresh) w.seqs
  (r, es ++ [e], { w with seqs := q, fresh := w.fresh + 1, made := w.made ++ [e.chain] })

/-- Dropping a `Vec<Expectation>` (or a `Drain`, or any sequence of values): elements are dropped in
order.  If one panics, the remaining ones are dropped while the thread is panicking; a panic in
those would abort, the second component says whether that happens. -/
def dropAll (panicking : Bool) (info : FnInfo V) :
    List (Expectation V) → Except Panic Unit × Bool
  | [] => (.ok (), false)
  | e :: es =>
    match e.drop panicking info with
    | .ok () => dropAll panicking info es
    | .error p =>
      let (r, ab) := dropAll true info es
      -- an abort happens if we were already panicking, or a later destructor panics again
      (.error p, panicking || ab || (match r with | .ok () => false | .error _ => true))

end Mockall
