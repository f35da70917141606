import Verif.Derive.Syntax

/-! # `expectation_visibility` (D:1237-1285) -/

namespace Mockall.Derive

/-- `syn::Visibility`; `inTok` says whether `in` is there: `pub(in a::b)`, `pub(crate)`. -/
inductive Vis
  | pub
  | inherited
  | restricted (inTok : Bool) (path : List Ident)
  deriving DecidableEq

/-- `expectation_visibility`, D:1243-1285.  The path of a restricted visibility is not empty; for an empty
one the code would panic (D:1270, `unwrap`), which we leave out. -/
def expectationVisibility (vis : Vis) (levels : Nat) : Vis :=
  if levels = 0 then vis
  else match vis with
    | .inherited => .restricted true ("super" :: List.replicate (levels - 1) "super")
    | .restricted i path =>
      if path.head? = some "crate" then .restricted i path
      else .restricted true (List.replicate levels "super" ++ path)
    | .pub => .pub

end Mockall.Derive
