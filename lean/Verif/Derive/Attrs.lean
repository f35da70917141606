import Verif.Derive.Syntax

/-! # Attributes (D:62-77, D:774-857) -/

namespace Mockall.Derive

/-- `syn::Attribute`.  A path is never empty: `last` is its last segment.  `args` are the tokens after the
path.  `#[cfg_attr(pred, a, b(..))]` is a constructor of its own; the code only sees its tokens
(`cfgTokens`), we keep apart what they mean.  A `cfg_attr` without a list is not Rust. -/
inductive Attr
  | plain (init : List Ident) (last : Ident) (args : List String)
  | cfgAttr (pred : List String) (attrs : List (List Ident × Ident × List String))
  deriving DecidableEq

/-- `attr.path().segments.last()`. -/
def Attr.last : Attr → Ident
  | .plain _ l _ => l
  | .cfgAttr _ _ => "cfg_attr"

/-- The tokens inside the parentheses of a `cfg_attr`, without punctuation. -/
def cfgTokens (pred : List String) (attrs : List (List Ident × Ident × List String)) : List String :=
  pred ++ attrs.flatMap fun (i, l, a) => i ++ l :: a

/-- `str::contains` on characters. -/
def hasSub (p : List Char) : List Char → Bool
  | [] => p.isEmpty
  | c :: l => p.isPrefixOf (c :: l) || hasSub p l

/-- `str::contains`. -/
def strContains (s p : String) : Bool := hasSub p.toList s.toList

/-- `is_concretize`, D:62-77.  `ml.tokens.to_string()` puts the tokens one after the other, separated by
spaces or punctuation; `concretize` contains neither, so it is in the string iff it is in one of the
tokens. -/
def isConcretize : Attr → Bool
  | .plain _ l _ => l = "concretize"
  | .cfgAttr p as => (cfgTokens p as).any (strContains · "concretize")

/-- `AttrFormatter`, D:774-779, with the defaults of `new`, D:782-789. -/
structure AttrFormatter where
  asyncTrait : Bool := true
  doc : Bool := true
  mustUse : Bool := false

/-- The filter of `AttrFormatter::format`, D:812-854. -/
def AttrFormatter.keep (f : AttrFormatter) (a : Attr) : Bool :=
  if isConcretize a then false
  else if a.last = "derive" then false
  else if a.last = "doc" then f.doc
  else if a.last = "async_trait" then f.asyncTrait
  else if a.last = "expect" then false
  else if a.last = "inline" then false
  else if a.last = "cold" then false
  else if a.last = "instrument" then false
  else if a.last = "link_name" then false
  else if a.last = "must_use" then f.mustUse
  else if a.last = "auto_enum" then false
  else true

/-- `AttrFormatter::format`, D:810-857. -/
def AttrFormatter.format (f : AttrFormatter) (l : List Attr) : List Attr := l.filter f.keep

end Mockall.Derive
