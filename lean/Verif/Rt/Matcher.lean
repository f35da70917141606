import Verif.Rt.Prelude

/-! # Argument matchers (F:1654-1757) -/

namespace Mockall

variable {V : Type}

/-- A `Box<dyn Predicate<T> + Send>`: its `eval` (which may panic; user code) and its `Display`. -/
structure Pred (V : Type) where
  eval : V → Except Panic Bool
  descr : String

/-- `enum Matcher`, F:1704-1715 (the `_Phantom` variant is never constructed). -/
inductive Matcher (V : Type)
  | always
  | func (f : List V → Except Panic Bool)
  /-- `FuncSt(Fragile<..>)` with the thread that registered it. -/
  | funcSt (owner : Nat) (f : List V → Except Panic Bool)
  | pred (ps : List (Pred V))

/-- Evaluate the elements of the array `[p0.eval(a0), p1.eval(a1), ...]` from left to right
(F:1679-1683, F:1697).  Every predicate is evaluated, also after one returned false; a panic stops.
The predicate tuple and the argument list have the same length by construction; the model ignores
surplus elements on either side. -/
def evalAll : List (Pred V) → List V → Except Panic (List Bool)
  | p :: ps, a :: as => do
    let b ← p.eval a
    let bs ← evalAll ps as
    return b :: bs
  | _, _ => .ok []

/-- `Matcher::matches`, F:1716-1729, run by thread `tid`. -/
def Matcher.matches (tid : Nat) (m : Matcher V) (args : List V) : Except Panic Bool :=
  match m with
  | .always => .ok true
  | .func f => f args
  -- `__mockall_f.get()` panics on a foreign thread
  | .funcSt owner f => if tid = owner then f args else .error .fragile
  -- `[..].iter().all(|x| *x)`
  | .pred ps => do
    let bs ← evalAll ps args
    return bs.all id

/-- `impl Display for Matcher`, F:1739-1752; the predicates are joined with ", " (F:1663-1671). -/
def Matcher.display : Matcher V → String
  | .always => "<anything>"
  | .func _ => "<function>"
  | .funcSt _ _ => "<single threaded function>"
  | .pred ps => ", ".intercalate (ps.map Pred.descr)

/-- `impl Default for Matcher`, F:1732-1737. -/
def Matcher.dflt : Matcher V := .always

end Mockall
