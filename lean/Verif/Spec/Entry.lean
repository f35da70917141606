import Verif.Derive.Entry
import Verif.Spec.Mockable

/-! # What `#[automock]` is to do with its input -/

namespace Mockall.Spec

open Derive

/-- The type that a list of attributes `type X = T` gives to `i`: the last one counts. -/
def lastType (l : List TypeAttr) (i : Ident) : Option Ty := ((l.filter fun a => a.id = i).getLast?).bind (·.dflt)

/-- Tokens that are handed on to the compiler as they are. -/
def handedOn {T : Type} (l : List (Piece T)) : List T := l.filterMap fun | .given t => some t | _ => none

/-- Generated code. -/
def generated {T : Type} (l : List (Piece T)) : List MockCode := l.filterMap fun | .mock c => some c | _ => none

/-- Messages of the parser. -/
def complaints {T : Type} (l : List (Piece T)) : List String := l.filterMap fun | .error e => some e | _ => none

end Mockall.Spec
