import Verif.Derive.Syntax

/-! # What paths mean

Name resolution, as far as it depends on the module a path is written in.  `denote P t` is `t` with each
path replaced by the absolute path it stands for in module `P`, so two types written in different
modules mean the same iff their `denote`s are equal. -/

namespace Mockall.Spec

open Derive

/-- A module: its absolute path, and what the names in scope in it (declared or imported) stand for, as
absolute paths.  Names not in scope (primitive types, generic parameters, external crates, ..) mean the
same everywhere. -/
structure Place where
  path : List Ident
  scope : Ident → Option (List Ident)

/-- The path of an item from the crate root. -/
def absolute (path : List Ident) : List Seg := .of "crate" :: path.map .of

/-- `super::super::rest`, seen from the module `path`.  Too many `super` lead nowhere. -/
def climb (path : List Ident) : List Seg → List Seg
  | [] => absolute path
  | s :: l =>
    if s.id = "super" then
      if path = [] then [.of "<nowhere>"] else climb path.dropLast l
    else absolute path ++ s :: l

/-- The item `path` with generic arguments. -/
def attach (path : List Ident) (a : Args) : List Seg :=
  match path.getLast? with
  | none => [.of "crate"]
  | some i => absolute path.dropLast ++ [.mk i a]

/-- `s::rest` where `s` is a plain name. -/
def named (P : Place) (s : Seg) (l : List Seg) : Option (List Seg) :=
  (P.scope s.id).map fun abs => attach abs s.args ++ l

/-- The absolute path of a path written in module `P`. -/
def resolve (P : Place) (lead : Bool) (segs : List Seg) : List Seg :=
  if lead then segs else
  match segs with
  | [] => []
  | s :: l =>
    if s.id = "super" then climb P.path (s :: l)
    else if s.id = "crate" then s :: l
    else if s.id = "self" then
      match l with
      | [] => absolute P.path
      | t :: l =>
        if t.id = "super" then climb P.path (t :: l)
        else (named P t l).getD (s :: t :: l)
    else (named P s l).getD (s :: l)

/-- Constant expressions: only paths depend on the module. -/
def denoteExpr (P : Place) : Expr → Expr
  | .path lead segs => .path lead ((resolve P lead (segs.map .of)).map Seg.id)
  | .other s => .other s

mutual
/-- The meaning of a type written in module `P`.  In `<T as a::Tr>::X` the first `pos` segments name the
trait; the remaining ones are names of its items. -/
def denote (P : Place) : Ty → Ty
  | .array e l => .array (denote P e) (denoteExpr P l)
  | .bareFn l i o => .bareFn l (denoteTys P i) (denoteRet P o)
  | .group e => .group (denote P e)
  | .implTrait b => .implTrait (denoteBounds P b)
  | .infer => .infer
  | .mac s => .mac s
  | .never => .never
  | .paren e => .paren (denote P e)
  | .path l s => .path l (resolve P l (denoteSegs P s))
  | .qpath q p l s =>
    if p = 0 then .qpath (denote P q) p l (denoteSegs P s)
    else
      let trait := resolve P l ((denoteSegs P s).take p)
      .qpath (denote P q) trait.length l (trait ++ (denoteSegs P s).drop p)
  | .ptr m e => .ptr m (denote P e)
  | .ref l m e => .ref l m (denote P e)
  | .slice e => .slice (denote P e)
  | .traitObject b => .traitObject (denoteBounds P b)
  | .tuple l => .tuple (denoteTys P l)
  | .verbatim s => .verbatim s
def denoteRet (P : Place) : Ret → Ret
  | .unit => .unit
  | .ty t => .ty (denote P t)
def denoteSeg (P : Place) : Seg → Seg
  | .mk i a => .mk i (denoteArgs P a)
def denoteArgs (P : Place) : Args → Args
  | .none => .none
  | .angle l => .angle (denoteGArgs P l)
  | .paren i o => .paren (denoteTys P i) (denoteRet P o)
def denoteGArg (P : Place) : GArg → GArg
  | .lt l => .lt l
  | .ty t => .ty (denote P t)
  | .const e => .const (denoteExpr P e)
  | .assocTy i t => .assocTy i (denote P t)
  | .assocConst i e => .assocConst i (denoteExpr P e)
  | .constraint i b => .constraint i (denoteBounds P b)
def denoteBound (P : Place) : Bound → Bound
  | .trait m l c s => .trait m l c (resolve P c (denoteSegs P s))
  | .lt l => .lt l
  | .other s => .other s
def denoteTys (P : Place) : List Ty → List Ty
  | [] => []
  | t :: l => denote P t :: denoteTys P l
def denoteSegs (P : Place) : List Seg → List Seg
  | [] => []
  | t :: l => denoteSeg P t :: denoteSegs P l
def denoteGArgs (P : Place) : List GArg → List GArg
  | [] => []
  | t :: l => denoteGArg P t :: denoteGArgs P l
def denoteBounds (P : Place) : List Bound → List Bound
  | [] => []
  | t :: l => denoteBound P t :: denoteBounds P l
end

/-- Generic parameters: the paths in bounds, defaults and where clauses. -/
def denoteGParam (P : Place) : GParam → GParam
  | .lt p => .lt p
  | .ty p => .ty { p with bounds := denoteBounds P p.bounds, dflt := p.dflt.map (denote P) }
  | .const i t => .const i (denote P t)

def denoteWPred (P : Place) : WPred → WPred
  | .ty l t b => .ty l (denote P t) (denoteBounds P b)
  | .lt l b => .lt l b

def denoteGenerics (P : Place) (g : Generics) : Generics :=
  { g with params := g.params.map (denoteGParam P), preds := g.preds.map (·.map (denoteWPred P)) }

/-! ## Generated modules -/

/-- A generated module: its name, and the names it declares or imports itself. -/
structure Module where
  name : Ident
  own : Ident → Option (List Ident)

/-- A generated module inside `P`, which starts with `use super::*;`: its own names come first, then
those of the enclosing module. -/
def Place.inside (P : Place) (m : Module) : Place where
  path := P.path ++ [m.name]
  scope x := (m.own x).or (P.scope x)

/-- Modules nested in each other. -/
def Place.nest (P : Place) : List Module → Place
  | [] => P
  | m :: l => (P.inside m).nest l

/-! ## Where paths occur -/

/-- A path in a type: does the code look at it, and its segments. -/
structure Use where
  seen : Bool
  lead : Bool
  ids : List Ident
  deriving DecidableEq

def Expr.uses : Expr → List Use
  | .path lead segs => [⟨false, lead, segs⟩]
  | .other _ => []

mutual
/-- All paths in a type.  Not seen are those in array lengths and constant arguments, inside
`impl Trait`, and in the arguments of segments other than the last. -/
def uses (seen : Bool) : Ty → List Use
  | .array e l => uses seen e ++ Expr.uses l
  | .bareFn _ i o => usesTys seen i ++ usesRet seen o
  | .group e => uses seen e
  | .implTrait b => usesBounds false b
  | .infer => []
  | .mac _ => []
  | .never => []
  | .paren e => uses seen e
  | .path l s => ⟨seen, l, s.map Seg.id⟩ :: usesSegs seen s
  | .qpath q p l s =>
    -- `<T>::super` cannot be written; the code takes it for a path that starts with `super`
    (if p = 0 then (if (s.map Seg.id).head? = some "super" then [⟨false, false, ["super"]⟩] else [])
      else [⟨seen, l, (s.map Seg.id).take p⟩]) ++ (uses seen q ++ usesSegs seen s)
  | .ptr _ e => uses seen e
  | .ref _ _ e => uses seen e
  | .slice e => uses seen e
  | .traitObject b => usesBounds seen b
  | .tuple l => usesTys seen l
  | .verbatim _ => []
def usesRet (seen : Bool) : Ret → List Use
  | .unit => []
  | .ty t => uses seen t
def usesSeg (seen : Bool) : Seg → List Use
  | .mk _ a => usesArgs seen a
def usesArgs (seen : Bool) : Args → List Use
  | .none => []
  | .angle l => usesGArgs seen l
  | .paren i o => usesTys seen i ++ usesRet seen o
def usesGArg (seen : Bool) : GArg → List Use
  | .lt _ => []
  | .ty t => uses seen t
  | .const e => Expr.uses e
  | .assocTy _ t => uses seen t
  | .assocConst _ e => Expr.uses e
  | .constraint _ b => usesBounds seen b
def usesBound (seen : Bool) : Bound → List Use
  | .trait _ _ c s => ⟨seen, c, s.map Seg.id⟩ :: usesSegs seen s
  | .lt _ => []
  | .other _ => []
def usesTys (seen : Bool) : List Ty → List Use
  | [] => []
  | t :: l => uses seen t ++ usesTys seen l
def usesSegs (seen : Bool) : List Seg → List Use
  | [] => []
  | [t] => usesSeg seen t
  | t :: u :: l => usesSeg false t ++ usesSegs seen (u :: l)
def usesGArgs (seen : Bool) : List GArg → List Use
  | [] => []
  | t :: l => usesGArg seen t ++ usesGArgs seen l
def usesBounds (seen : Bool) : List Bound → List Use
  | [] => []
  | t :: l => usesBound seen t ++ usesBounds seen l
end

/-- The names that Mockall's module for a function declares or imports itself. -/
def internalNames (isStatic generic : Bool) : List Ident :=
  ["Rfunc", "Matcher", "Common", "Expectation", "Expectations", "CaseTreeExt", "Mutex", "Box", "Vec", "mem", "DerefMut",
    "Range"] ++ (if isStatic then ["ExpectationGuard", "Context", "MutexGuard"] else []) ++
    (if generic then ["GenericExpectations"] else [])

/-- The name is not one of the generated modules' own. -/
def Free (gens : List Module) (x : Ident) : Prop := ∀ m ∈ gens, m.own x = none

/-- A path that keeps its meaning in generated code: it starts with `::` or `crate`, or with `super` in
a place the code looks at, or with a name (possibly after `self::`) that the generated modules do not
use themselves.  (`::super` cannot be written.) -/
def Use.Good (gens : List Module) (u : Use) : Prop :=
  if u.lead then u.ids.head? ≠ some "super" else
  match u.ids with
  | [] => True
  | x :: l =>
    if x = "super" then u.seen = true
    else if x = "crate" then True
    else if x = "self" then
      match l with
      | [] => False
      | y :: _ => y ≠ "super" ∧ Free gens y
    else Free gens x

/-- The uses in generic parameters that the code looks at (`const` parameters it does not). -/
def GParam.uses : GParam → List Use
  | .lt _ => []
  | .ty p => usesBounds true p.bounds ++ (match p.dflt with | none => [] | some t => Spec.uses true t)
  | .const _ t => Spec.uses false t

def WPred.uses : WPred → List Use
  | .ty _ t b => Spec.uses true t ++ usesBounds true b
  | .lt _ _ => []

def Generics.uses (g : Generics) : List Use :=
  g.params.flatMap GParam.uses ++ (g.preds.getD []).flatMap WPred.uses

end Mockall.Spec
