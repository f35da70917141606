import Verif.Derive.Relay
import Verif.Spec.Build

/-! # Which argument reaches whom -/

namespace Mockall.Spec

open Derive

variable {V : Type}

/-- The names of the arguments of a function, without `self`. -/
def argNames : List FnArg → List Ident
  | [] => []
  | .typed _ (.ident _ _ i _) _ :: l => i :: argNames l
  | _ :: l => argNames l

/-- The names that the generated code uses for its own variables where arguments are in scope: `no_match_msg`,
those that start with `__mockall_`, and `desc` in methods that return `&mut T`. -/
def Hidden (k : Kind) (x : Ident) : Prop :=
  x = "no_match_msg" ∨ "__mockall_".toList <+: x.toList ∨ (k = .refMut ∧ x = "desc")

/-- What the expectation gets for an argument: the argument itself, in a box if it is a closure (C50), or by
reference if it is concretized (C61). -/
def handed (c : CallArg) (t : Thing V) : Thing V :=
  match c with
  | .boxed _ => .box t
  | .plain _ => t
  | .ref m _ => .ref m t
  | .slice _ _ => .refs t

/-- What a predicate gets for an argument of the expectation: a reference to it, or itself if it is one. -/
def looked (a : BArg) (t : Thing V) : Thing V := if a.byRef then .ref false t else t

/-- The argument of the caller that something was made of. -/
def source : Thing V → Option V
  | .given v => some v
  | .box t => source t
  | .ref _ t => source t
  | .refs t => source t
  | .internal _ => none

end Mockall.Spec
