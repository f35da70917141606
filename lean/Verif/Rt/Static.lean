import Verif.Rt.Store

/-! # Static methods and `Context` (F:1243-1652, F:541-563) -/

namespace Mockall

variable {V : Type}

/-- The process global `static EXPECTATIONS: Mutex<..>` of a static method (F:1400-1406,
F:1478-1482), with the poison flag of the mutex. -/
structure StaticFn (V : Type) where
  mi : MethodInfo V
  store : Store V
  poison : Bool

/-- The initial value, F:1402-1405, F:1479-1481. -/
def StaticFn.new (mi : MethodInfo V) : StaticFn V := ⟨mi, .new mi, false⟩

/-- Calling a static method, F:541-563.  The guard lives until the end of the block, so a panic
inside `call` poisons the mutex; the `expect(&no_match_msg)` comes after it.
(Simplification: the caller is not already panicking, in which case `MutexGuard` would not poison.) -/
def StaticFn.call (cx : Cx V) (k : Key) (args : List V) (f : StaticFn V) (w : World V) :
    Except Panic V × StaticFn V × World V :=
  if f.poison then (.error .poisoned, f, w)
  else
    let r := f.store.call cx f.mi k args w
    let poison := match r.1 with | .ok _ => false | .error _ => true
    (expectMatch cx (f.mi.fn k) args r.1, { f with store := r.2.1, poison := poison }, r.2.2)

/-- `Context::expect` (F:1616-1621) followed by builder calls through the `ExpectationGuard`
(F:1270-1389, F:1420-1440, F:1497-1519).  The guard lives until the end of the statement, so a panic of
a builder call poisons the mutex. -/
def StaticFn.expect (nightly : Bool) (k : Key) (bs : List (Build V)) (f : StaticFn V) (w : World V) :
    Except Panic Unit × StaticFn V × World V :=
  if f.poison then (.error .poisoned, f, w)
  else
    let r := f.store.expect nightly f.mi k bs w
    let poison := match r.1 with | .ok _ => false | .error _ => true
    (r.1, { f with store := r.2.1, poison := poison }, r.2.2)

/-- `Context::checkpoint`/`do_checkpoint`, F:1601-1612, also the static branch of F:586-596.  The
mutex is released before the collected expectations are dropped. -/
def StaticFn.checkpoint (env : Env V) (panicking : Bool) (f : StaticFn V) :
    (Except Panic Unit × Bool) × StaticFn V :=
  if f.poison then ((.error .poisoned, panicking), f)
  else (dropAll panicking f.mi.base (f.store.elems env), { f with store := f.store.drained })

/-- `impl Drop for Context`, F:1631-1650. -/
def StaticFn.dropContext (env : Env V) (panicking : Bool) (f : StaticFn V) :
    (Except Panic Unit × Bool) × StaticFn V :=
  if panicking then
    -- `clear_poison()`; then drain, dropping the expectations while panicking
    (dropAll true f.mi.base (f.store.elems env), { f with store := f.store.drained, poison := false })
  else f.checkpoint env false

end Mockall
