import Verif.Derive.Syntax

/-! # The owned form of return types (F:30-137, F:246-264) -/

namespace Mockall.Derive

/-- `::std::a::b`, without arguments. -/
def stdPath (l : List Ident) : Ty := .path true ((("std" :: l).map .of))

/-- `::std::vec::Vec<T>`, F:95-118. -/
def stdVec (t : Ty) : Ty := .path true [.of "std", .of "vec", .mk "Vec" (.angle [.ty t])]

/-- `destrify`, F:61-122.  The comparisons `*path == str_ty` are with a path of one segment without
arguments, leading colon or `qself`, i.e. `Ty.name`. -/
def destrify : Ty → Ty
  | .ref lt m e =>
    if lt = some "static" then .ref lt m e
    else if e = .name "CStr" then .ref lt m (stdPath ["ffi", "CString"])
    else if e = .name "OsStr" then .ref lt m (stdPath ["ffi", "OsString"])
    else if e = .name "Path" then .ref lt m (stdPath ["path", "PathBuf"])
    else if e = .name "str" then .ref lt m (stdPath ["string", "String"])
    else match e with
      | .slice t => .ref lt m (stdVec t)
      | e => .ref lt m e
  | t => t

/-- `dedynify`, F:35-57; the `Bool` says whether the type was boxed. -/
def dedynify : Ty → Ty × Bool
  | .ref lt m (.traitObject b) =>
    if lt = some "static" then (.ref lt m (.paren (.traitObject b)), false)
    else (.ref lt m (.path false [.mk "Box" (.angle [.ty (.traitObject b)])]), true)
  | t => (t, false)

/-- `ownify`, F:125-137. -/
def ownify : Ty → Ty
  | .ref lt m e => if lt = some "static" then .ref lt m e else e
  | t => t

/-- F:247-264, after `supersuperfy`: the types `output` and `owned_output` of a function returning `t`,
and the flag `boxed`. -/
def outputs (t : Ty) : Ty × Ty × Bool :=
  let o := dedynify (destrify t)
  (o.1, ownify o.1, o.2)

end Mockall.Derive
