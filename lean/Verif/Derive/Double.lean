import Verif.Derive.Syntax

/-! # `#[double]` (mockall_double/src/lib.rs) -/

namespace Mockall.Double

open Derive

/-- `syn::Ident` as `#[double]` sees it: `r#name` is raw. -/
structure Id where
  name : String
  raw : Bool := false
  deriving DecidableEq

/-- `syn::UseTree`. -/
inductive UseTree
  | path (id : Id) (tree : UseTree)
  | name (id : Id)
  | rename (id : Id) (as : Id)
  | glob
  | group (items : List UseTree)

/-- `format!("{i}")`: a raw identifier is printed with its `r#`. -/
def Id.display (i : Id) : String := if i.raw then "r#" ++ i.name else i.name

/-- `mock_ident`, X:182-195.  `isUpper` is `char::is_uppercase`.  `format_ident!` leaves the `r#` of its
arguments away. -/
def mockIdent (isUpper : Char → Bool) (i : Id) : Gen Id :=
  match i.display.toList with
  | [] => throw "zero-length ident?"
  | c :: _ =>
    if isUpper c then return ⟨"Mock" ++ i.name, false⟩ else return ⟨"mock_" ++ i.name, false⟩

mutual
/-- `mock_usetree`, X:197-222. -/
def mockUseTree (isUpper : Char → Bool) : UseTree → Gen UseTree
  | .glob => throw "Cannot double glob imports.  Import by fully qualified name instead."
  | .group l => return .group (← mockUseTrees isUpper l)
  | .name i => return .rename (← mockIdent isUpper i) i
  | .path i t => return .path i (← mockUseTree isUpper t)
  | .rename i a => return .rename (← mockIdent isUpper i) a
/-- The loop of X:203-206. -/
def mockUseTrees (isUpper : Char → Bool) : List UseTree → Gen (List UseTree)
  | [] => return []
  | t :: l => do
    let t' ← mockUseTree isUpper t
    return t' :: (← mockUseTrees isUpper l)
end

/-- `mock_itemuse`, X:173-180. -/
def mockItemUse (isUpper : Char → Bool) : UseTree → Gen UseTree
  | .name _ => throw "Cannot double types in the current module.  Use a submodule (use foo::Foo) or a rename (use Foo as Bar)"
  | t => mockUseTree isUpper t

/-- `mock_itemtype`, X:163-171, on the aliased type.  The identifiers of types are not raw here. -/
def mockItemType (isUpper : Char → Bool) : Ty → Gen Ty
  | .path c s => return .path c (← mockLast s)
  | .qpath q p c s => return .qpath q p c (← mockLast s)
  | _ => throw "Only path types may be doubled"
where
  /-- `segments.last_mut()`. -/
  mockLast : List Seg → Gen (List Seg)
    | [] => throw "called `Option::unwrap()` on a `None` value"
    | [.mk i a] => return [.mk (← mockIdent isUpper ⟨i, false⟩).name a]
    | s :: t :: l => return s :: (← mockLast (t :: l))

/-- `do_double`, X:39-58, on `use` items: what is compiled without and with `cfg(test)`. -/
def doubleUse (isUpper : Char → Bool) (t : UseTree) : Gen (UseTree × UseTree) := do
  let m ← mockItemUse isUpper t
  return (t, m)

end Mockall.Double
