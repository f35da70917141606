import Verif.Derive.Types
import Verif.Derive.Args
import Verif.Derive.Generics
import Verif.Derive.Owned
import Verif.Derive.Visibility

/-! # From a signature to a `MockFunction` (F:160-460, D:79-245, D:1017-1036) -/

namespace Mockall.Derive

/-- `syn::Signature`, without `const`, `async`, `unsafe`, the ABI and variadics. -/
structure Sig where
  ident : Ident
  generics : Generics := {}
  inputs : List FnArg := []
  output : Ret := .unit
  deriving DecidableEq

/-! ## `concretize_args` (D:79-245) -/

/-- What `hm` and `needs_muts` (D:90-91) hold for one type; they have the same keys. -/
structure Concrete where
  ty : Ty
  slice : Option (List Bound) := none
  needsMut : Bool := false
  deriving DecidableEq

/-- The HashMaps of D:90-91; `insert` overwrites. -/
abbrev ConcreteMap := List (Ty × Concrete)

/-- `dyn bounds` in parentheses; `syn` parses it if there is at least one trait among the bounds. -/
def parenDyn (b : List Bound) : Gen Ty :=
  if b.any (fun | .trait _ _ _ _ => true | _ => false) then return .paren (.traitObject b)
  else throw "Type cannot be made into a trait object"

/-- The test of D:97-104: is the first segment of the first bound `FnMut`? -/
def firstIsFnMut : List Bound → Bool
  | .trait _ _ _ (s :: _) :: _ => s.id = "FnMut"
  | _ => false

/-- `save_types`, D:93-142. -/
def saveTypes (i : Ident) (b : List Bound) (hm : ConcreteMap) : Gen ConcreteMap :=
  if b = [] then return hm
  else do
    let d ← parenDyn b
    let nm := firstIsFnMut b
    return (.ref none false (.slice (.name i)),
        ⟨.ref none false (.slice (.ref none false d)), some b, nm⟩) ::
      (.ref none true (.name i), ⟨.ref none true d, none, nm⟩) ::
      (.ref none false (.name i), ⟨.ref none nm d, none, nm⟩) ::
      (.name i, ⟨.ref none nm d, none, nm⟩) :: hm

/-- D:144-149. -/
def saveTypesParams : List GParam → ConcreteMap → Gen ConcreteMap
  | [], hm => return hm
  | .ty p :: l, hm => do saveTypesParams l (← saveTypes p.id p.bounds hm)
  | _ :: l, hm => saveTypesParams l hm

/-- D:150-161. -/
def saveTypesPreds : List WPred → ConcreteMap → Gen ConcreteMap
  | [], hm => return hm
  | .ty _ t b :: l, hm =>
    match asIdent t with
    | some i => do saveTypesPreds l (← saveTypes i b hm)
    | none => saveTypesPreds l hm
  | _ :: l, hm => saveTypesPreds l hm

/-- The arguments, D:169-191. -/
def concretizeArg (hm : ConcreteMap) : FnArg → Gen FnArg
  | .typed _ p t => do
    let p' ← demutifyPat p
    match hm.lookup t with
    | some c => return .typed [] p' c.ty
    | none => return .typed [] p' t
  | a => return a

/-- The expressions, D:195-226. -/
def concretizeCall (hm : ConcreteMap) : FnArg → Gen (Option CallArg)
  | .receiver _ _ _ _ => return none
  | .typed _ p t => do
    let p' ← demutifyPat p
    if patIsSelf p' then return none
    else match hm.lookup t with
      | none => return some (.plain p')
      | some c => match t with
        | .ref _ _ (.slice _) => return some (.slice p' (c.slice.getD []))
        | .ref _ _ _ => return some (.plain p')
        | _ => return some (.ref c.needsMut p')

/-- The signature's arguments, D:229-241. -/
def concretizeSigArg (hm : ConcreteMap) : FnArg → Gen FnArg
  | .typed a p t =>
    if ((hm.lookup t).map Concrete.needsMut).getD false then
      match p with
      | .ident r _ i s => return .typed a (.ident r true i s) t
      | _ => throw "This Pat type is not yet supported by Mockall when used as an argument to a concretized function."
    else return .typed a p t
  | a => return a

/-- `concretize_args`, D:86-245. -/
def concretizeArgs (sig : Sig) : Gen (Generics × List FnArg × List CallArg × Sig) := do
  let hm ← saveTypesParams sig.generics.params []
  let hm ← saveTypesPreds (sig.generics.preds.getD []) hm
  let outargs ← sig.inputs.mapM (concretizeArg hm)
  let calls ← sig.inputs.mapM (concretizeCall hm)
  let inputs ← sig.inputs.mapM (concretizeSigArg hm)
  return ({}, outargs, calls.filterMap id, { sig with inputs })

/-! ## `Builder::build` (F:199-343) -/

/-- `Builder`, F:160-171; `struct_`, `trait_` and `parent` are names that are only passed on.  The
attributes matter for `concretize` only. -/
structure Builder where
  sig : Sig
  vis : Vis := .inherited
  levels : Nat := 0
  callLevels : Option Nat := none
  structGenerics : Option Generics := none
  concretize : Bool := false

/-- One argument, the elements of the vectors `argnames`, `argty`, `predexprs`, `predty` and
`refpredty`.  `byRef` tells `predexprs`: `&x` or `x`. -/
structure BArg where
  name : Pat
  ty : Ty
  byRef : Bool
  predTy : Ty
  refPredTy : Ty
  deriving DecidableEq

/-- `MockFunction`, F:397-459, without attributes and the names passed on. -/
structure MockFn where
  alifetimes : List LtParam
  args : List BArg
  callExprs : List CallArg
  callGenerics : Generics
  callVis : Vis
  egenerics : Generics
  cgenerics : Generics
  fnParams : List Ident
  isStatic : Bool
  output : Ty
  ownedOutput : Ty
  boxed : Bool
  returnRef : Bool
  returnRefmut : Bool
  sig : Sig
  typeGenerics : Generics
  privmodVis : Vis

/-- The body of the loop of F:217-245 for a typed argument. -/
def buildArg (levels : Nat) (p : Pat) (t : Ty) : Gen BArg := do
  let aty ← supersuperfy levels t
  if patIsSelf p then throw "assertion failed: !pat_is_self(&argname)"
  else match aty with
    | .ref _ _ e => return ⟨p, aty, false, e, .ref none false e⟩
    | _ => return ⟨p, aty, true, aty, .ref none false aty⟩

/-- The loop of F:217-245. -/
def buildArgs (levels : Nat) : List FnArg → Gen (List BArg × Bool)
  | [] => return ([], true)
  | .typed _ p t :: l => do
    let a ← buildArg levels p t
    let (as, st) ← buildArgs levels l
    return (a :: as, st)
  | .receiver _ _ _ _ :: l => do
    let (as, _) ← buildArgs levels l
    return (as, false)

/-- F:246-264: `output`, `owned_output` and `boxed`. -/
def buildOutput (levels : Nat) : Ret → Gen (Ty × Ty × Bool)
  | .unit => return (.tuple [], .tuple [], false)
  | .ty t => return outputs (← supersuperfy levels t)

/-- F:265-277: `return_ref` and `return_refmut`. -/
def returnFlags : Ty → Bool × Bool
  | .ref lt m _ => if lt = some "static" then (false, false) else (!m, m)
  | _ => (false, false)

/-- The names of the type parameters, F:309-311. -/
def typeParams (g : Generics) : List Ident :=
  g.params.filterMap fun | .ty p => some p.id | _ => none

/-- F:207-214. -/
def prepare (b : Builder) : Gen (Generics × List FnArg × List CallArg × Sig) :=
  if b.concretize then concretizeArgs b.sig
  else do
    let (x, y, z) ← declosurefy b.sig.generics b.sig.inputs
    return (x, y, z, b.sig)

/-- F:278-281. -/
def rejectStaticRef (isStatic : Bool) (flags : Bool × Bool) : Gen Unit :=
  if isStatic && (flags.1 || flags.2) then
    throw "Mockall cannot mock static methods that return non-'static references.  It's unclear what the return value's lifetime should be."
  else return ()

/-- `Builder::build`, F:199-343.  The union of the sets of lifetimes has no order (`HashSet`); we take
that of declaration. -/
def build (b : Builder) : Gen MockFn := do
  let (dg, inputs, callExprs, sig) ← prepare b
  let (args, isStatic) ← buildArgs b.levels inputs
  let (output, ownedOutput, boxed) ← buildOutput b.levels b.sig.output
  let dg ← supersuperfyGenerics b.levels dg
  rejectStaticRef isStatic (returnFlags output)
  let (typeGenerics, sal, srl) ←
    splitLifetimes (b.structGenerics.getD {}) inputs (.ty ownedOutput)
  let (callGenerics, mal, mrl) ← splitLifetimes dg inputs (.ty ownedOutput)
  let cgenerics := mergeGenerics typeGenerics callGenerics
  let egenerics := mergeGenerics (mergeGenerics cgenerics (ltsToGenerics srl)) (ltsToGenerics mrl)
  return {
    alifetimes := (sal ++ mal).eraseDups
    args, callExprs, callGenerics
    callVis := expectationVisibility b.vis (b.callLevels.getD b.levels)
    egenerics, cgenerics
    fnParams := typeParams egenerics
    isStatic, output, ownedOutput, boxed
    returnRef := (returnFlags output).1
    returnRefmut := (returnFlags output).2
    sig, typeGenerics
    privmodVis := expectationVisibility b.vis b.levels }

/-! ## What is generated for it -/

/-- Which of the three sorts of `Expectation`, `Expectations` and `Rfunc` is used. -/
inductive Kind
  | static
  | ref
  | refMut
  deriving DecidableEq

/-- The choices of `priv_module`, F:830-836, F:837-843, F:858-864. -/
def MockFn.kind (f : MockFn) : Kind :=
  if f.returnRef then .ref else if f.returnRefmut then .refMut else .static

/-- `call_mut` instead of `call`, F:524-528 and F:2508-2518. -/
def MockFn.callsMut (f : MockFn) : Bool := f.returnRefmut

/-- `is_expectation_generic`, F:787-791. -/
def MockFn.isExpectationGeneric (f : MockFn) : Bool :=
  f.egenerics.params.any (fun | .ty _ => true | _ => false) || f.egenerics.preds.isSome

/-- `is_method_generic`, F:795-799. -/
def MockFn.isMethodGeneric (f : MockFn) : Bool :=
  f.callGenerics.params.any (fun | .ty _ => true | _ => false) || f.callGenerics.preds.isSome

/-- The type of which the `TypeId` is taken for the key, `gen_keyid`, D:1019-1036.  The argument of
`Key::new` must be a type: with a lifetime (or a constant) as only parameter the code generated is not
valid. -/
def genKeyid (g : Generics) : Gen Ty :=
  match g.params with
  | [] => return .tuple []
  | [.ty p] => return .name p.id
  | [_] => throw "expected a type"
  | _ => match typeParams g with
    | [i] => return .paren (.name i)
    | l => return .tuple (l.map .name)

end Mockall.Derive
