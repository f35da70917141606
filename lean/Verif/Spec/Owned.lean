import Verif.Spec.Names

/-! # What a reference to an owned type can be used as

The part of Rust's deref coercions that concerns std types. -/

namespace Mockall.Spec

open Derive

/-- In module `P` the type `t` is the std item with this absolute path. -/
def IsStd (P : Place) (t : Ty) (path : List Ident) : Prop :=
  t = .path true (path.map .of) ∨
  ∃ i, t = .name i ∧ P.scope i = some ("<extern>" :: path)

/-- In module `P`, a `&owned` can be used where a `&target` is wanted: they are the same type, or
`owned: Deref<Target = target>`, according to the documentation of std. -/
inductive Derefs (P : Place) : Ty → Ty → Prop
  | same (t : Ty) : Derefs P t t
  /-- `impl Deref for String { type Target = str; }`; `str` is a primitive type: the name is not declared
  anywhere -/
  | string {o : Ty} (ho : IsStd P o ["std", "string", "String"]) (hs : P.scope "str" = none) :
    Derefs P o (.name "str")
  | cstring {o t : Ty} (ho : IsStd P o ["std", "ffi", "CString"]) (ht : IsStd P t ["std", "ffi", "CStr"]) :
    Derefs P o t
  | osstring {o t : Ty} (ho : IsStd P o ["std", "ffi", "OsString"])
    (ht : IsStd P t ["std", "ffi", "OsStr"]) : Derefs P o t
  | pathbuf {o t : Ty} (ho : IsStd P o ["std", "path", "PathBuf"])
    (ht : IsStd P t ["std", "path", "Path"]) : Derefs P o t
  /-- `impl<T> Deref for Vec<T> { type Target = [T]; }` -/
  | vec (t : Ty) : Derefs P (.path true [.of "std", .of "vec", .mk "Vec" (.angle [.ty t])]) (.slice t)
  /-- `impl<T: ?Sized> Deref for Box<T> { type Target = T; }` -/
  | box (i : Ident) (t : Ty) (hi : P.scope i = some ["<extern>", "std", "boxed", "Box"]) :
    Derefs P (.path false [.mk i (.angle [.ty t])]) t

/-- Types whose values have no size known to the compiler: they cannot be stored. -/
inductive Unsized (P : Place) : Ty → Prop
  | str : P.scope "str" = none → Unsized P (.name "str")
  | slice (t : Ty) : Unsized P (.slice t)
  | dyn (b : List Bound) : Unsized P (.traitObject b)
  | cstr {t : Ty} : IsStd P t ["std", "ffi", "CStr"] → Unsized P t
  | osstr {t : Ty} : IsStd P t ["std", "ffi", "OsStr"] → Unsized P t
  | path {t : Ty} : IsStd P t ["std", "path", "Path"] → Unsized P t
  | paren {t : Ty} : Unsized P t → Unsized P (.paren t)
  | group {t : Ty} : Unsized P t → Unsized P (.group t)

end Mockall.Spec
