/-!
# Runtime prelude

Abbreviations for source files used in all comments of this development:
`L` = mockall/src/lib.rs, `F` = mockall_derive/src/mock_function.rs,
`D` = mockall_derive/src/lib.rs, `S` = mockall_derive/src/mock_item_struct.rs.

Panics are values; every function that may panic returns `Except Panic α`, and every function
that may also change state returns the new state in *both* cases, because Rust code can observe
the state after `catch_unwind` or in a destructor.
-/

namespace Mockall

-- only used to check concrete examples
deriving instance DecidableEq for Except

/-- `usize::MAX` on a 64 bit target.  Models the `usize::MAX` of L:1516-1566. -/
def usizeMax : Nat := 18446744073709551615

/-- The reasons why an `Rfunc` can fail to produce a value (the `Err(&'static str)` of
`Rfunc::call`/`call_mut`).  L:1444-1475, F:1770-1775, F:1833-1838 and F:1956-1958. -/
inductive RetErr
  /-- L:1471, F:1772: "Returning default values requires the \"nightly\" feature". -/
  | needNightly
  /-- L:1451, F:1775: "Can only return default values for types that impl std::Default". -/
  | noDefault
  /-- F:1957: "called twice, but it returns by move". -/
  | twice
  deriving DecidableEq, Repr

/-- The message text of a `RetErr`. -/
def RetErr.render : RetErr → String
  | .needNightly => "Returning default values requires the \"nightly\" feature"
  | .noDefault => "Can only return default values for types that impl std::Default"
  | .twice => "called twice, but it returns by move"

/-- What `Times::call` (L:1587-1602) returns as its `Err(String)`. -/
inductive CallErr
  /-- L:1591. -/
  | shouldNot
  /-- L:1593-1597; `count` is the ordinal of the failing call. -/
  | tooMany (count maximum : Nat)
  deriving DecidableEq, Repr

/-- Message text, L:1591 and L:1593-1597. -/
def CallErr.render : CallErr → String
  | .shouldNot => "should not have been called"
  | .tooMany c m =>
    "called " ++ toString c ++ " times which is more than the expected " ++ toString m

/-- One constructor per panic site of the runtime. -/
inductive Panic
  /-- `attempt to add with overflow` (debug profile), L:1527, L:1553, L:1565, L:1588. -/
  | addOverflow
  /-- `attempt to subtract with overflow` (debug profile), L:1596, L:1616, L:1641. -/
  | subOverflow
  /-- L:1533, L:1552. -/
  | backwardsRange
  /-- F:973-974. -/
  | onlyExact
  /-- F:957-963: `{func}: Expectation({matcher}) {err}`. -/
  | call (func matcher : String) (err : CallErr)
  /-- L:1712-1715: `{desc}: Method sequence violation`. -/
  | seqViolation (desc : String)
  /-- L:1706-1709. -/
  | seqResatisfied
  /-- F:474-578: `{desc}: No matching expectation found`. -/
  | noMatch (desc : String)
  /-- F:2032-2037, F:2100-2103, F:2188-2194: `{func}: Expectation({matcher}) {err}`. -/
  | ret (func matcher : String) (err : RetErr)
  /-- `PoisonError` from `lock().unwrap()`. -/
  | poisoned
  /-- `Fragile::get`/`get_mut`/`into_inner` on the wrong thread (external crate `fragile`). -/
  | fragile
  /-- `Fragile::into_inner` on the wrong thread (F:1970-1976).  It panics while it owns the value, whose
  destructor panics again during unwinding (`Rt/Destructors.lean`): the process aborts.  Here, as in
  `Sys.run`, it is one more kind of panic; `Sys.runOn` ends the program. -/
  | fragileMove
  /-- F:1043-1049. -/
  | tooFewAtDrop (func matcher : String) (count minimum : Nat)
  /-- F:1050-1056. -/
  | tooManyAtDrop (func matcher : String) (count maximum : Nat)
  /-- A panic raised by user code (a predicate or a closure). -/
  | user (msg : String)
  deriving DecidableEq, Repr

/-- The panic message.  The text around `assert_eq!` values is abbreviated to the user supplied
part; the wording of std's own messages (overflow, poison) is std's. -/
def Panic.render : Panic → String
  | .addOverflow => "attempt to add with overflow"
  | .subOverflow => "attempt to subtract with overflow"
  | .backwardsRange => "Backwards range"
  | .onlyExact => "Only Expectations with an exact call count have sequences"
  | .call f m e => f ++ ": Expectation(" ++ m ++ ") " ++ e.render
  | .seqViolation d => d ++ ": Method sequence violation"
  | .seqResatisfied =>
    "Method sequence violation.  Was an already-satisfied method called another time?"
  | .noMatch d => d ++ ": No matching expectation found"
  | .ret f m e => f ++ ": Expectation(" ++ m ++ ") " ++ e.render
  | .poisoned => "PoisonError"
  | .fragile => "trying to access wrapped value in fragile container from incorrect thread."
  | .fragileMove => "trying to access wrapped value in fragile container from incorrect thread."
  | .tooFewAtDrop f m c n =>
    f ++ ": Expectation(" ++ m ++ ") called " ++ toString c ++
      " time(s) which is fewer than expected " ++ toString n
  | .tooManyAtDrop f m c n =>
    f ++ ": Expectation(" ++ m ++ ") called " ++ toString c ++
      " time(s) which is more than expected " ++ toString n
  | .user s => s

/-- `AtomicUsize::fetch_add(1)`: the new value (wraps). -/
def atomicInc (n : Nat) : Nat := if n = usizeMax then 0 else n + 1

/-- Checked `n + 1` on `usize` (debug profile). -/
def addOne (n : Nat) : Except Panic Nat :=
  if n = usizeMax then .error .addOverflow else .ok (n + 1)

/-- Checked `n - 1` on `usize` (debug profile). -/
def subOne (n : Nat) : Except Panic Nat :=
  if n = 0 then .error .subOverflow else .ok (n - 1)

end Mockall
