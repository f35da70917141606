import Verif.Derive.Syntax

/-! # Arguments and return types of methods (D:318-534) -/

namespace Mockall.Derive

/-- `demutify_arg`, D:511-533, on the pattern. -/
def demutifyPat : Pat → Gen Pat
  | .wild => throw "Mocked methods must have named arguments"
  | .ident r _ i sub =>
    if r then throw "Mockall does not support by-reference argument bindings"
    else if sub then throw "Mockall does not support subpattern bindings"
    else return .ident r false i sub
  | .other _ => throw "Unsupported argument type"

/-- `demutify`, D:499-508. -/
def demutify : List FnArg → Gen (List FnArg)
  | [] => return []
  | .receiver r m c t :: l => do
    let l' ← demutify l
    return .receiver r (if r.isNone then false else m) c t :: l'
  | .typed a p t :: l => do
    let p' ← demutifyPat p
    return .typed a p' t :: (← demutify l)

/-- `pat_is_self`, D:861-867. -/
def patIsSelf : Pat → Bool
  | .ident _ _ i _ => i = "self"
  | _ => false

/-- `Box<dyn bounds>`. -/
def boxDyn (b : List Bound) : Ty := .path false [.mk "Box" (.angle [.ty (.traitObject b)])]

/-! ## `declosurefy` (D:318-446) -/

/-- The HashMap from generic types to the boxes that replace them. -/
abbrev FnMap := List (Ty × Ty)

/-- `save_fn_types`, D:325-338. -/
def saveFnTypes (i : Ident) (all : List Bound) : List Bound → FnMap → Gen FnMap
  | [], hm => return hm
  | .trait _ _ _ segs :: l, hm =>
    match segs.getLast? with
    | none => throw "called `Option::unwrap()` on a `None` value"
    | some s =>
      if s.id ∈ ["Fn", "FnMut", "FnOnce"] then
        if (hm.lookup (.name i)).isSome then throw "A generic parameter had two Fn bounds?"
        else saveFnTypes i all l ((.name i, boxDyn all) :: hm)
      else saveFnTypes i all l hm
  | _ :: l, hm => saveFnTypes i all l hm

/-- `parse2::<Ident>(quote!(#ty))`: a bare name that is no keyword.  (A `Group` is invisible.) -/
def asIdent : Ty → Option Ident
  | .group t => asIdent t
  | .path false [.mk i .none] => if i ∈ ["Self", "self", "super", "crate"] then none else some i
  | _ => none

/-- D:341-345. -/
def saveParams : List GParam → FnMap → Gen FnMap
  | [], hm => return hm
  | .ty p :: l, hm => do saveParams l (← saveFnTypes p.id p.bounds p.bounds hm)
  | _ :: l, hm => saveParams l hm

/-- D:346-357. -/
def savePreds : List WPred → FnMap → Gen FnMap
  | [], hm => return hm
  | .ty _ t b :: l, hm =>
    match asIdent t with
    | some i => do savePreds l (← saveFnTypes i b b hm)
    | none => savePreds l hm
  | _ :: l, hm => savePreds l hm

/-- `should_remove`, D:360-363. -/
def shouldRemove (hm : FnMap) (i : Ident) : Bool := (hm.lookup (.name i)).isSome

/-- The filter of D:364-372. -/
def keepParam (hm : FnMap) : GParam → Bool
  | .ty p => !shouldRemove hm p.id
  | _ => true

/-- The filter of D:375-389. -/
def keepPred (hm : FnMap) : WPred → Bool
  | .ty _ t _ =>
    match asIdent t with
    | some i => !shouldRemove hm i
    | none => true
  | _ => true

/-- The generics, D:364-401. -/
def declosureGenerics (hm : FnMap) (g : Generics) : Generics :=
  let params := g.params.filter (keepParam hm)
  { angle := if params = [] then false else g.angle
    params
    preds := match g.preds with
      | none => none
      | some wc =>
        let wc := wc.filter (keepPred hm)
        if wc = [] then none else some wc }

/-- The arguments, D:404-426. -/
def declosureArg (hm : FnMap) : FnArg → Gen FnArg
  | .typed _ p t => do
    let p' ← demutifyPat p
    return .typed [] p' ((hm.lookup t).getD t)
  | a => return a

/-- An expression passed on to the expectation: `Box::new(x)` or `x`, and for `concretize` (D:205-221)
`&x`, `&mut x` or the slice of `&x[i] as &(dyn B)`. -/
inductive CallArg
  | boxed (p : Pat)
  | plain (p : Pat)
  | ref (isMut : Bool) (p : Pat)
  | slice (p : Pat) (b : List Bound)
  deriving DecidableEq

/-- The expressions, D:430-444. -/
def declosureCall (hm : FnMap) : FnArg → Gen (Option CallArg)
  | .receiver _ _ _ _ => return none
  | .typed _ p t => do
    let p' ← demutifyPat p
    if patIsSelf p' then return none
    else if (hm.lookup t).isSome then return some (.boxed p')
    else return some (.plain p')

/-- `declosurefy`, D:320-446. -/
def declosurefy (g : Generics) (args : List FnArg) : Gen (Generics × List FnArg × List CallArg) := do
  let hm ← saveParams g.params []
  let hm ← savePreds (g.preds.getD []) hm
  let outargs ← args.mapM (declosureArg hm)
  let calls ← args.mapM (declosureCall hm)
  return (declosureGenerics hm g, outargs, calls.filterMap id)

/-! ## Return types -/

/-- The test of D:452-465. -/
def needsPin : Bound → Bool
  | .trait _ _ _ segs => match segs.getLast? with
    | some s => s.id = "Future" || s.id = "Stream"
    | none => false
  | _ => false

/-- `deimplify`, D:449-475. -/
def deimplify : Ret → Ret
  | .ty (.implTrait b) =>
    if b.any needsPin then
      .ty (.path true [.of "std", .of "pin", .mk "Pin" (.angle [.ty (boxDyn b)])])
    else .ty (boxDyn b)
  | r => r

/-- The filter of D:481-487. -/
def keepNotSelf : WPred → Bool
  | .ty _ t _ => t ≠ .name "Self"
  | _ => true

/-- `dewhereselfify`, D:478-496. -/
def dewhereselfify (g : Generics) : Generics :=
  { g with preds := match g.preds with
    | none => none
    | some wc =>
      let wc := wc.filter keepNotSelf
      if wc = [] then none else some wc }

end Mockall.Derive
