import Verif.Rt.Expectations

/-! # Expectation stores of one method: plain and generic (F:1195-1236, F:2447-2546) -/

namespace Mockall

variable {V : Type}

/-- `::mockall::Key` (L:1667-1679): identifies the tuple of type arguments of a generic method.
See `Derive/Key` for `gen_keyid`. -/
abbrev Key := Nat

/-- The contents of a `HashMap<Key, Box<dyn AnyExpectations>>` (F:2469-2472), as an association
list.  `downcast` never fails because the key determines the type (C53). -/
abbrev GMap (V : Type) := List (Key × List (Expectation V))

/-- `HashMap::get`. -/
def GMap.get (m : GMap V) (k : Key) : Option (List (Expectation V)) :=
  (m.find? fun p => p.1 == k).map (·.2)

/-- Overwrite the value of an existing key, or insert it. -/
def GMap.put : GMap V → Key → List (Expectation V) → GMap V
  | [], k, es => [(k, es)]
  | p :: m, k, es => if p.1 == k then (k, es) :: m else p :: GMap.put m k es

/-- The store of one method: `Expectations` (F:1200-1202) or `GenericExpectations` (F:2469-2472). -/
inductive Store (V : Type)
  | concrete (es : List (Expectation V))
  | generic (m : GMap V)

/-- What the generator knows about one method: whether its store is generic (F:787-799 and
F:2453-2458), the names and return kind (one `FnInfo`), and the `Default` value of the return type,
which for a generic method may depend on the type arguments. -/
structure MethodInfo (V : Type) where
  generic : Bool
  base : FnInfo V
  dflt : Key → Option V

/-- The `FnInfo` of one instantiation.  A method without type arguments has only one. -/
def MethodInfo.fn (mi : MethodInfo V) (k : Key) : FnInfo V :=
  { mi.base with default := mi.dflt (if mi.generic then k else 0) }

/-- Facts about the program fixed for a whole execution: whether the `nightly` feature is on, how
arguments print, and the iteration order of hash maps (any function returning a permutation). -/
structure Env (V : Type) where
  nightly : Bool
  dbg : V → String
  ord : GMap V → GMap V

/-- An empty store: `Expectations::new` (F:1223-1225), `GenericExpectations::new` (F:2484-2486). -/
def Store.new (mi : MethodInfo V) : Store V := if mi.generic then .generic [] else .concrete []

/-- `Expectations::call` or `GenericExpectations::call` (F:2522-2532: `get`, then `call`, `flatten`). -/
def Store.call (cx : Cx V) (mi : MethodInfo V) (k : Key) (args : List V) (s : Store V) (w : World V) :
    Except Panic (Option V) × Store V × World V :=
  match s with
  | .concrete es =>
    let o := Expectations.call cx (mi.fn k) args es w
    (o.1, .concrete o.2.1, o.2.2)
  | .generic m =>
    match GMap.get m k with
    | none => (.ok none, s, w)
    | some es =>
      let o := Expectations.call cx (mi.fn k) args es w
      (o.1, .generic (GMap.put m k o.2.1), o.2.2)

/-- `Expectations::expect` (F:1216-1221) or `GenericExpectations::expect` (F:2535-2542: `entry`,
`or_insert_with(Expectations::new)`, `expect`), followed by the builder chain. -/
def Store.expect (nightly : Bool) (mi : MethodInfo V) (k : Key) (bs : List (Build V)) (s : Store V)
    (w : World V) : Except Panic Unit × Store V × World V :=
  match s with
  | .concrete es =>
    let o := Expectations.expect nightly (mi.fn k) bs es w
    (o.1, .concrete o.2.1, o.2.2)
  | .generic m =>
    let o := Expectations.expect nightly (mi.fn k) bs ((GMap.get m k).getD []) w
    (o.1, .generic (GMap.put m k o.2.1), o.2.2)

/-- The expectations of a store in the order in which they are drained and dropped
(`Vec::drain`, F:1209-1213, or `HashMap::drain`, F:2476-2481; dropping the store itself uses the same
orders). -/
def Store.elems (env : Env V) : Store V → List (Expectation V)
  | .concrete es => es
  | .generic m => (env.ord m).flatMap (·.2)

/-- The store after draining. -/
def Store.drained : Store V → Store V
  | .concrete _ => .concrete []
  | .generic _ => .generic []

end Mockall
