import Verif.Conc.Weak

/-! # Happens before

What a test does to order two threads (joining one, sending on a channel, ...) is a `sync` in the
schedule. -/

namespace Mockall

variable {V : Type}

/-- During schedule `sch`, what thread `t` did before it comes to happen before what thread `u` does after
it: `t` is `u`, or there is a chain of synchronisations from `t` to `u`. -/
inductive Hb : List (WSched V) → Nat → Nat → Prop
  | same (sch : List (WSched V)) (t : Nat) : Hb sch t t
  | sync {before after : List (WSched V)} {t u v w : Nat} :
    Hb before t u → Hb after v w → Hb (before ++ .sync u v :: after) t w

/-- The values thread `t` can see when it loads `l`: no older than what it knows of. -/
def WState.CanSee (s : WState V) (t : Nat) (l : Loc) (v : Nat) : Prop :=
  ∃ i, s.view t l ≤ i ∧ (s.hist l)[i]? = some v

end Mockall
