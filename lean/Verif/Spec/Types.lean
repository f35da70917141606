import Verif.Spec.Replace

/-! # What the transformations of types are for

The intended changes, and where the code does not look. -/

namespace Mockall.Spec

open Derive

/-! ## `Self` -/

/-- A generic parameter used as an argument: `T` for `T: Bound`, `'a` for `'a: 'b`, `N` for
`const N: usize`. -/
def paramArg : GParam → GArg
  | .ty p => .ty (.name p.id)
  | .lt p => .lt p.lt
  | .const i _ => .ty (.name i)

/-- The arguments `<T, U>` of a struct with the given parameters. -/
def paramArgs (l : List GParam) : Args := if l = [] then .none else .angle (l.map paramArg)

/-- Replace the name `Self` by `actual` with the given arguments. -/
def selfRewrite (actual : Ident) (args : Args) : Rewrite where
  seg i a := if i = "Self" then .mk actual args else .mk i a

/-- What `deselfify` does not look at. -/
def selfBlind : Blind := { bareFn := true, implTrait := true, fnArgs := true, constraint := true }

/-- Anything but the name `Self`. -/
def NotSelf (x : Leaf) : Prop := ∀ b, x ≠ .seg "Self" b

/-- Anything but `Self<..>`, macro calls and unparsed tokens. -/
def SelfSupported (x : Leaf) : Prop := x ≠ .form .opaque ∧ x ≠ .seg "Self" false

/-! ## Anonymous lifetimes -/

/-- Replace the lifetime `'_` by `'static`. -/
def anonRewrite : Rewrite where
  lt l := if l = "_" then "static" else l

/-- What `deanonymize` does not look at. -/
def anonBlind : Blind := { tyArgs := true, constraint := true }

/-- Anything but the lifetime `'_`. -/
def NotAnon (x : Leaf) : Prop := x ≠ .lt "_"

/-- Anything but `impl Trait`, `Fn(A) -> B`, macro calls and unparsed tokens. -/
def AnonSupported (x : Leaf) : Prop :=
  x ≠ .form .opaque ∧ x ≠ .form .implTrait ∧ x ≠ .form .fnArgs

/-! ## Lifetimes in a type -/

/-- What `find_lifetimes` does not look at. -/
def ltsBlind : Blind := { fnArgs := true }

/-- Anything but `fn(A) -> B`, macro calls and unparsed tokens. -/
def LtsSupported (x : Leaf) : Prop := x ≠ .form .opaque ∧ x ≠ .form .bareFn

/-! ## Associated types -/

/-- What `substitute_type` does not look at. -/
def substBlind : Blind := { constraint := true }

/-- Anything but `Fn(A) -> B`, `<A as B>::C`, macro calls and unparsed tokens. -/
def SubstSupported (x : Leaf) : Prop :=
  x ≠ .form .opaque ∧ x ≠ .form .fnArgs ∧ x ≠ .form .qself

end Mockall.Spec
