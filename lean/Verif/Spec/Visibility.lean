import Verif.Derive.Visibility

/-! # What a visibility means -/

namespace Mockall.Spec

open Derive

/-- Everywhere, or in a module (given by its path from the root of the crate) and all below it. -/
inductive Scope
  | everywhere
  | within (m : List Ident)
  deriving DecidableEq

/-- Below `m`: names only. -/
def descend (m : List Ident) (p : List Ident) : Option (List Ident) :=
  if ∀ s ∈ p, s ≠ "super" ∧ s ≠ "self" ∧ s ≠ "crate" ∧ s ≠ "Self" then some (m ++ p) else none

/-- Any number of `super`, then names. -/
def ascend : List Ident → List Ident → Option (List Ident)
  | m, [] => some m
  | m, s :: p =>
    if s = "super" then if m = [] then none else ascend m.dropLast p
    else descend m (s :: p)

/-- The module that a path means in the module `m`.  The path of a visibility starts with `crate`, `self`
or `super` (Rust 2018). -/
def resolveMod (m : List Ident) : List Ident → Option (List Ident)
  | [] => none
  | s :: p =>
    if s = "crate" then descend [] p
    else if s = "self" then ascend m p
    else if s = "super" then ascend m (s :: p)
    else none

/-- The scope of an item in the module `m`; none if this is not Rust: without `in` only `crate`, `self` and
`super` are allowed, and the path must lead to an ancestor of the module. -/
def scope (m : List Ident) : Vis → Option Scope
  | .pub => some .everywhere
  | .inherited => some (.within m)
  | .restricted inTok p =>
    if inTok = false ∧ p ≠ ["crate"] ∧ p ≠ ["self"] ∧ p ≠ ["super"] then none
    else match resolveMod m p with
      | none => none
      | some t => if t <+: m then some (.within t) else none

end Mockall.Spec
