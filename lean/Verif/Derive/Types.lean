import Verif.Derive.Syntax

/-! # The transformations of types in `mockall_derive`

Each function follows the code's own traversal: it visits exactly the positions the code visits. -/

namespace Mockall.Derive

/-! ## `supersuperfy` (D:869-1016) -/

/-- D:900-917: put `n` more `super` in front of a path that starts with `super`; also gives the number
of segments added. -/
def addSupers (n : Nat) (segs : List Seg) : List Seg × Nat :=
  match segs with
  | [] => (segs, 0)
  | s :: _ => if s.id = "super" then (List.replicate n (Seg.of "super") ++ segs, n) else (segs, 0)

mutual
/-- `supersuperfy` and its inner function `recurse`, D:921-986.  The types the code does not list
(`_ => compile_error(..)`) do not exist in the syntax tree. -/
def supersuperfy (n : Nat) : Ty → Gen Ty
  | .slice e => do return .slice (← supersuperfy n e)
  | .array e l => do return .array (← supersuperfy n e) l
  | .ptr m e => do return .ptr m (← supersuperfy n e)
  | .ref l m e => do return .ref l m (← supersuperfy n e)
  | .bareFn l i o => do
    let o ← supersuperfyRet n o
    let i ← supersuperfyTys n i
    return .bareFn l i o
  | .tuple l => do return .tuple (← supersuperfyTys n l)
  | .path l s => do
    let s ← supersuperfyLast n s
    return .path l (addSupers n s).1
  | .qpath q p l s => do
    let s ← supersuperfyLast n s
    let q ← supersuperfy n q
    return .qpath q (p + (addSupers n s).2) l (addSupers n s).1
  | .paren e => do return .paren (← supersuperfy n e)
  | .group e => do return .group (← supersuperfy n e)
  | .mac _ => throw "mockall_derive does not support this type in this position"
  | .verbatim _ => throw "mockall_derive does not support this type in this position"
  | .traitObject b => do return .traitObject (← supersuperfyBounds n b)
  | .implTrait b => return .implTrait b
  | .infer => return .infer
  | .never => return .never
/-- The return types at D:894-896 and D:938-940. -/
def supersuperfyRet (n : Nat) : Ret → Gen Ret
  | .unit => return .unit
  | .ty t => do return .ty (← supersuperfy n t)
/-- D:871-899: only the arguments of the last segment of a path are looked at. -/
def supersuperfyLast (n : Nat) : List Seg → Gen (List Seg)
  | [] => return []
  | [.mk i a] => do return [.mk i (← supersuperfyArgs n a)]
  | s :: t :: l => do return s :: (← supersuperfyLast n (t :: l))
/-- D:872-899. -/
def supersuperfyArgs (n : Nat) : Args → Gen Args
  | .none => return .none
  | .angle l => do return .angle (← supersuperfyGArgs n l)
  | .paren i o => do
    let i ← supersuperfyTys n i
    let o ← supersuperfyRet n o
    return .paren i o
/-- D:876-888. -/
def supersuperfyGArg (n : Nat) : GArg → Gen GArg
  | .ty t => do return .ty (← supersuperfy n t)
  | .assocTy i t => do return .assocTy i (← supersuperfy n t)
  | .constraint i b => do return .constraint i (← supersuperfyBounds n b)
  | .lt l => return .lt l
  | .const e => return .const e
  | .assocConst i e => return .assocConst i e
/-- D:968-972, D:1011-1015. -/
def supersuperfyBound (n : Nat) : Bound → Gen Bound
  | .trait m l c s => do
    let s ← supersuperfyLast n s
    return .trait m l c (addSupers n s).1
  | .lt l => return .lt l
  | .other s => return .other s
/-- The loops of D:891-893, D:941-943 and D:946-948. -/
def supersuperfyTys (n : Nat) : List Ty → Gen (List Ty)
  | [] => return []
  | t :: l => do
    let t ← supersuperfy n t
    return t :: (← supersuperfyTys n l)
/-- The loop of D:875-888. -/
def supersuperfyGArgs (n : Nat) : List GArg → Gen (List GArg)
  | [] => return []
  | t :: l => do
    let t ← supersuperfyGArg n t
    return t :: (← supersuperfyGArgs n l)
/-- `supersuperfy_bounds`, D:1007-1016. -/
def supersuperfyBounds (n : Nat) : List Bound → Gen (List Bound)
  | [] => return []
  | t :: l => do
    let t ← supersuperfyBound n t
    return t :: (← supersuperfyBounds n l)
end

/-- `supersuperfy_generics`, D:988-1005, one parameter. -/
def supersuperfyGParam (n : Nat) : GParam → Gen GParam
  | .ty p => do
    let b ← supersuperfyBounds n p.bounds
    match p.dflt with
    | none => return .ty { p with bounds := b }
    | some t => do
      let t ← supersuperfy n t
      return .ty { p with bounds := b, dflt := some t }
  | p => return p

/-- `supersuperfy_generics`, D:988-1005, one predicate. -/
def supersuperfyWPred (n : Nat) : WPred → Gen WPred
  | .ty l t b => do
    let t ← supersuperfy n t
    return .ty l t (← supersuperfyBounds n b)
  | p => return p

/-- `supersuperfy_generics`, D:988-1005. -/
def supersuperfyGenerics (n : Nat) (g : Generics) : Gen Generics := do
  let params ← g.params.mapM (supersuperfyGParam n)
  match g.preds with
  | none => return { g with params := params }
  | some l => do
    let l ← l.mapM (supersuperfyWPred n)
    return { g with params := params, preds := some l }

/-! ## `deselfify` (D:534-668) -/

/-- D:539-570: the generic arguments given to the name that replaces `Self`. -/
def selfArgs (g : Generics) : Gen Args :=
  if g.params = [] then return .none
  else if g.angle = false then throw "called `Option::unwrap()` on a `None` value"
  else do
    let l ← g.params.mapM fun
      | .ty p => (return .ty (.name p.id) : Gen GArg)
      | .lt p => return .lt p.lt
      | .const .. => throw "not implemented"
    return .angle l

mutual
/-- `deselfify`, D:594-649. -/
def deselfify (actual : Ident) (g : Generics) : Ty → Gen Ty
  | .slice e => do return .slice (← deselfify actual g e)
  | .array e l => do return .array (← deselfify actual g e) l
  | .ptr m e => do return .ptr m (← deselfify actual g e)
  | .ref l m e => do return .ref l m (← deselfify actual g e)
  | .tuple l => do return .tuple (← deselfifyTys actual g l)
  | .path l s => do return .path l (← deselfifySegs actual g s)
  | .qpath q p l s => do
    let q ← deselfify actual g q
    return .qpath q p l (← deselfifySegs actual g s)
  | .paren e => do return .paren (← deselfify actual g e)
  | .group e => do return .group (← deselfify actual g e)
  | .mac _ => throw "mockall_derive does not support this type as a return argument"
  | .verbatim _ => throw "mockall_derive does not support this type as a return argument"
  | .traitObject b => do return .traitObject (← deselfifyBounds actual g b)
  | .implTrait b => return .implTrait b
  | .bareFn l i o => return .bareFn l i o
  | .infer => return .infer
  | .never => return .never
/-- One segment in the loop of `deselfify_path`, D:535-588.  When `Self` is replaced by `MockX<T, U>`
the code goes on into the new arguments, which are names of type parameters; these are identifiers,
hence not the keyword `Self`, and stay as they are. -/
def deselfifySeg (actual : Ident) (g : Generics) : Seg → Gen Seg
  | .mk i a =>
    if i = "Self" then
      match a with
      | .none => do return .mk actual (← selfArgs g)
      | _ => throw "Type arguments after Self are unexpected"
    else do return .mk i (← deselfifyArgs actual g a)
/-- D:576-587. -/
def deselfifyArgs (actual : Ident) (g : Generics) : Args → Gen Args
  | .angle l => do return .angle (← deselfifyGArgs actual g l)
  | .none => return .none
  | .paren i o => return .paren i o
/-- D:578-586. -/
def deselfifyGArg (actual : Ident) (g : Generics) : GArg → Gen GArg
  | .ty t => do return .ty (← deselfify actual g t)
  | .assocTy i t => do return .assocTy i (← deselfify actual g t)
  | .lt l => return .lt l
  | .const e => return .const e
  | .assocConst i e => return .assocConst i e
  | .constraint i b => return .constraint i b
/-- D:629-636. -/
def deselfifyBound (actual : Ident) (g : Generics) : Bound → Gen Bound
  | .trait m l c s => do return .trait m l c (← deselfifySegs actual g s)
  | .lt l => return .lt l
  | .other s => return .other s
def deselfifyTys (actual : Ident) (g : Generics) : List Ty → Gen (List Ty)
  | [] => return []
  | t :: l => do
    let t ← deselfify actual g t
    return t :: (← deselfifyTys actual g l)
def deselfifySegs (actual : Ident) (g : Generics) : List Seg → Gen (List Seg)
  | [] => return []
  | t :: l => do
    let t ← deselfifySeg actual g t
    return t :: (← deselfifySegs actual g l)
def deselfifyGArgs (actual : Ident) (g : Generics) : List GArg → Gen (List GArg)
  | [] => return []
  | t :: l => do
    let t ← deselfifyGArg actual g t
    return t :: (← deselfifyGArgs actual g l)
def deselfifyBounds (actual : Ident) (g : Generics) : List Bound → Gen (List Bound)
  | [] => return []
  | t :: l => do
    let t ← deselfifyBound actual g t
    return t :: (← deselfifyBounds actual g l)
end

/-- One argument in the loop of `deselfify_args`, D:653-668. -/
def deselfifyArg (actual : Ident) (g : Generics) : FnArg → Gen FnArg
  | .receiver r m colon t =>
    if colon then do return .receiver r m colon (← deselfify actual g t)
    else return .receiver r m colon t
  | .typed a p t => do return .typed a p (← deselfify actual g t)

/-! ## `deanonymize` (D:247-315) -/

/-- `deanonymize_lifetime`, D:247-251. -/
def deanonymizeLt (l : Lt) : Lt := if l = "_" then "static" else l

/-- D:259-262. -/
def deanonymizeGArg : GArg → GArg
  | .lt l => .lt (deanonymizeLt l)
  | a => a

/-- `deanonymize_path`, D:253-268, one segment. -/
def deanonymizeSeg : Seg → Gen Seg
  | .mk i .none => return .mk i .none
  | .mk i (.angle l) => return .mk i (.angle (l.map deanonymizeGArg))
  | .mk _ (.paren _ _) => throw "Methods returning functions are TODO"

/-- `deanonymize_path`, D:253-268. -/
def deanonymizePath (s : List Seg) : Gen (List Seg) := s.mapM deanonymizeSeg

/-- D:301-307. -/
def deanonymizeBound : Bound → Gen Bound
  | .trait m l c s => do return .trait m l c (← deanonymizePath s)
  | .lt l => return .lt (deanonymizeLt l)
  | .other s => return .other s

mutual
/-- `deanonymize`, D:271-316. -/
def deanonymize : Ty → Gen Ty
  | .array e l => do return .array (← deanonymize e) l
  | .bareFn l i o => do
    let o ← deanonymizeRet o
    let i ← deanonymizeTys i
    return .bareFn l i o
  | .group e => do return .group (← deanonymize e)
  | .infer => return .infer
  | .never => return .never
  | .paren e => do return .paren (← deanonymize e)
  | .path l s => do return .path l (← deanonymizePath s)
  | .qpath q p l s => do
    let q ← deanonymize q
    return .qpath q p l (← deanonymizePath s)
  | .ptr m e => do return .ptr m (← deanonymize e)
  | .ref l m e => do return .ref (l.map deanonymizeLt) m (← deanonymize e)
  | .slice e => do return .slice (← deanonymize e)
  | .traitObject b => do return .traitObject (← b.mapM deanonymizeBound)
  | .tuple l => do return .tuple (← deanonymizeTys l)
  | .implTrait _ => throw "Unimplemented type for deanonymize"
  | .mac _ => throw "Unimplemented type for deanonymize"
  | .verbatim _ => throw "Unimplemented type for deanonymize"
def deanonymizeRet : Ret → Gen Ret
  | .unit => return .unit
  | .ty t => do return .ty (← deanonymize t)
def deanonymizeTys : List Ty → Gen (List Ty)
  | [] => return []
  | t :: l => do
    let t ← deanonymize t
    return t :: (← deanonymizeTys l)
end

/-! ## `find_lifetimes` (D:680-772)

The code collects a `HashSet`; we collect a list and only ever ask for membership. -/

mutual
/-- `find_lifetimes`, D:723-772. -/
def findLts : Ty → Gen (List Lt)
  | .array e _ => findLts e
  | .group e => findLts e
  | .infer => return []
  | .never => return []
  | .paren e => findLts e
  | .path _ s => findLtsSegs s
  | .qpath q _ _ s => do
    let a ← findLtsSegs s
    return a ++ (← findLts q)
  | .ptr _ e => findLts e
  | .ref l _ e => do
    let a ← findLts e
    return a ++ l.toList
  | .slice e => findLts e
  | .traitObject b => findLtsBounds b
  | .tuple l => findLtsTys l
  | .implTrait b => findLtsBounds b
  | .bareFn _ _ _ => throw "unsupported type in this context"
  | .mac _ => throw "unsupported type in this context"
  | .verbatim _ => throw "unsupported type in this context"
/-- `find_lifetimes_in_path`, D:694-721. -/
def findLtsSeg : Seg → Gen (List Lt)
  | .mk _ a => findLtsArgs a
/-- D:697. -/
def findLtsArgs : Args → Gen (List Lt)
  | .angle l => findLtsGArgs l
  | .none => return []
  | .paren _ _ => return []
/-- D:699-716. -/
def findLtsGArg : GArg → Gen (List Lt)
  | .lt l => return [l]
  | .ty t => findLts t
  | .assocTy _ t => findLts t
  | .constraint _ b => findLtsBounds b
  | .const _ => return []
  | .assocConst _ _ => return []
/-- `find_lifetimes_in_tpb`, D:680-692. -/
def findLtsBound : Bound → Gen (List Lt)
  | .lt l => return [l]
  | .trait _ _ _ s => findLtsSegs s
  | .other _ => return []
def findLtsTys : List Ty → Gen (List Lt)
  | [] => return []
  | t :: l => do
    let a ← findLts t
    return a ++ (← findLtsTys l)
def findLtsSegs : List Seg → Gen (List Lt)
  | [] => return []
  | t :: l => do
    let a ← findLtsSeg t
    return a ++ (← findLtsSegs l)
def findLtsGArgs : List GArg → Gen (List Lt)
  | [] => return []
  | t :: l => do
    let a ← findLtsGArg t
    return a ++ (← findLtsGArgs l)
def findLtsBounds : List Bound → Gen (List Lt)
  | [] => return []
  | t :: l => do
    let a ← findLtsBound t
    return a ++ (← findLtsBounds l)
end

/-! ## `Attrs::substitute_type` (automock.rs:30-215) -/

/-- `Attrs::attrs`, automock.rs:26-28: a `HashMap`, as an association list with distinct keys. -/
abbrev Subst := List (Ident × Ty)

/-- `Attrs::get_path`, automock.rs:31-42. -/
def getPath (σ : Subst) (lead : Bool) (segs : List Seg) : Option Ty :=
  match lead, segs with
  | false, [s, t] => if s.id = "Self" then σ.lookup t.id else none
  | _, _ => none

/-- automock.rs:129-133. -/
def qselfPath : Ty → Option (List Seg)
  | .path _ qs => some qs
  | .qpath _ _ _ qs => some qs
  | _ => none

/-- The `qself` branch of `substitute_type`, automock.rs:128-159. -/
def substQself (σ : Subst) (trait : Ident) (q : Ty) (pos : Nat) (segs : List Seg) : Gen Ty :=
  match qselfPath q with
  | none => throw "QSelf's type isn't a path?"
  | some qs =>
    match pos, qs, segs with
    | 1, [qi], [penult, last] =>
      if qi.id ≠ "Self" then throw "QSelf is a work in progress"
      else if penult.id ≠ trait then
        throw "Mockall does not support QSelf substitutions except for the trait being mocked"
      else match σ.lookup last.id with
        | some t => return t
        | none => throw "Unknown type substitution for QSelf"
    | _, _, _ => throw "QSelf is a work in progress"

mutual
/-- `substitute_type`, automock.rs:100-193. -/
def substTy (σ : Subst) (trait : Ident) : Ty → Gen Ty
  | .slice e => do return .slice (← substTy σ trait e)
  | .array e l => do return .array (← substTy σ trait e) l
  | .ptr m e => do return .ptr m (← substTy σ trait e)
  | .ref l m e => do return .ref l m (← substTy σ trait e)
  | .bareFn l i o => do
    let i ← substTys σ trait i
    return .bareFn l i (← substRet σ trait o)
  | .tuple l => do return .tuple (← substTys σ trait l)
  | .qpath q p _ s => substQself σ trait q p s
  | .path l s =>
    match getPath σ l s with
    | some t => return t
    | none => do return .path l (← substSegs σ trait s)
  | .traitObject b => do return .traitObject (← substBounds σ trait b)
  | .implTrait b => do return .implTrait (← substBounds σ trait b)
  | .paren e => do return .paren (← substTy σ trait e)
  | .group e => do return .group (← substTy σ trait e)
  | .mac _ => throw "mockall_derive does not support this type when using associated types"
  | .verbatim _ => throw "mockall_derive does not support this type when using associated types"
  | .infer => return .infer
  | .never => return .never
def substRet (σ : Subst) (trait : Ident) : Ret → Gen Ret
  | .unit => return .unit
  | .ty t => do return .ty (← substTy σ trait t)
/-- `substitute_path_segment`, automock.rs:63-97. -/
def substSeg (σ : Subst) (trait : Ident) : Seg → Gen Seg
  | .mk i a => do return .mk i (← substArgs σ trait a)
/-- automock.rs:65-96. -/
def substArgs (σ : Subst) (trait : Ident) : Args → Gen Args
  | .none => return .none
  | .paren _ _ => throw "Mockall does not support mocking Fn objects.  See https://github.com/asomers/mockall/issues/139"
  | .angle l => do return .angle (← substGArgs σ trait l)
/-- automock.rs:73-94. -/
def substGArg (σ : Subst) (trait : Ident) : GArg → Gen GArg
  | .lt l => return .lt l
  | .ty t => do return .ty (← substTy σ trait t)
  | .assocConst i e => return .assocConst i e
  | .assocTy i t => do return .assocTy i (← substTy σ trait t)
  | .const e => return .const e
  | .constraint i b => return .constraint i b
/-- `substitute_type_param_bound`, automock.rs:195-215. -/
def substBound (σ : Subst) (trait : Ident) : Bound → Gen Bound
  | .trait m l c s =>
    match getPath σ c s with
    | none => do return .trait m l c (← substSegs σ trait s)
    | some (.path c' s') => return .trait m l c' s'
    | some (.qpath _ _ c' s') => return .trait m l c' s'
    | some _ => throw "Can only substitute paths for trait bounds"
  | .lt l => return .lt l
  | .other s => return .other s
def substTys (σ : Subst) (trait : Ident) : List Ty → Gen (List Ty)
  | [] => return []
  | t :: l => do
    let t ← substTy σ trait t
    return t :: (← substTys σ trait l)
def substSegs (σ : Subst) (trait : Ident) : List Seg → Gen (List Seg)
  | [] => return []
  | t :: l => do
    let t ← substSeg σ trait t
    return t :: (← substSegs σ trait l)
def substGArgs (σ : Subst) (trait : Ident) : List GArg → Gen (List GArg)
  | [] => return []
  | t :: l => do
    let t ← substGArg σ trait t
    return t :: (← substGArgs σ trait l)
def substBounds (σ : Subst) (trait : Ident) : List Bound → Gen (List Bound)
  | [] => return []
  | t :: l => do
    let t ← substBound σ trait t
    return t :: (← substBounds σ trait l)
end

end Mockall.Derive
