import Verif.Spec.Syntax

/-! # What a list of generics says -/

namespace Mockall.Spec

open Derive

inductive ParamKind
  | lt | ty | const
  deriving DecidableEq

/-- A parameter is identified by its kind and name. -/
def GParam.key : GParam → ParamKind × String
  | .lt p => (.lt, p.lt)
  | .ty p => (.ty, p.id)
  | .const i _ => (.const, i)

/-- The parameters declared by `g`, in order. -/
def declared (g : Generics) : List (ParamKind × String) := g.params.map GParam.key

/-- `g` declares `<n: b>`. -/
def TyBound (g : Generics) (n : Ident) (b : Bound) : Prop :=
  ∃ p, .ty p ∈ g.params ∧ p.id = n ∧ b ∈ p.bounds

/-- `g` declares `<#[a] n>`. -/
def TyAttr (g : Generics) (n : Ident) (a : String) : Prop :=
  ∃ p, .ty p ∈ g.params ∧ p.id = n ∧ a ∈ p.attrs

/-- `g` declares `<n = t>`. -/
def TyDflt (g : Generics) (n : Ident) (t : Ty) : Prop :=
  ∃ p, .ty p ∈ g.params ∧ p.id = n ∧ p.dflt = some t

/-- `g` declares `<'l: 'b>`. -/
def LtBound (g : Generics) (l b : Lt) : Prop :=
  ∃ p, .lt p ∈ g.params ∧ p.lt = l ∧ b ∈ p.bounds

/-- `g` has `where for<ls> t: b`. -/
def WhereTy (g : Generics) (ls : List LtParam) (t : Ty) (b : Bound) : Prop :=
  ∃ lo bs, .ty lo t bs ∈ g.preds.getD [] ∧ ls = lo.getD [] ∧ b ∈ bs

/-- `g` has `where 'l: 'b`. -/
def WhereLt (g : Generics) (l b : Lt) : Prop :=
  ∃ bs, .lt l bs ∈ g.preds.getD [] ∧ b ∈ bs

/-- `<` and `>` are there if there are parameters. -/
def Wf (g : Generics) : Prop := g.angle = false → g.params = []

/-! ## Lifetimes of a signature -/

/-- The lifetime occurs in the type of an argument; for a receiver, in its `&'a` or in its written
type. -/
def ArgHas (l : Lt) : FnArg → Prop
  | .receiver r _ colon t => r = some (some l) ∨ (colon = true ∧ .lt l ∈ leaves t)
  | .typed _ _ t => .lt l ∈ leaves t

/-- The lifetime occurs in the return type. -/
def RetHas (l : Lt) (r : Ret) : Prop := .lt l ∈ leavesRet r

/-- The lifetime parameters of `g`. -/
def ltParams (g : Generics) : List LtParam :=
  g.params.filterMap fun | .lt p => some p | _ => none

/-- The type parameters of `g`. -/
def tyParams (g : Generics) : List TyParam :=
  g.params.filterMap fun | .ty p => some p | _ => none

end Mockall.Spec
