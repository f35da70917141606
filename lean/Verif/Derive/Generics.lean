import Verif.Derive.Types

/-! # Splitting and merging generics (D:1053-1235, D:1287-1293) -/

namespace Mockall.Derive

/-! ## `merge_generics` (D:1053-1145) -/

/-- `cmp_gp_idents`, D:1057-1066. -/
def sameParam : GParam → GParam → Bool
  | .ty a, .ty b => a.id = b.id
  | .lt a, .lt b => a.lt = b.lt
  | .const i _, .const j _ => i = j
  | _, _ => false

/-- `cmp_wp_idents`, D:1069-1077. -/
def samePred : WPred → WPred → Bool
  | .ty _ t _, .ty _ u _ => t = u
  | .lt l _, .lt m _ => l = m
  | _, _ => false

/-- D:1090-1103: what happens to a parameter that is in both.  (The comparison of the bounds is that of
`syn`'s `Punctuated`, which also sees a trailing `+`; we ignore that.) -/
def mergeParam : GParam → GParam → GParam
  | .ty o, .ty y => .ty { o with
      attrs := o.attrs ++ y.attrs
      dflt := if o.dflt.isNone then y.dflt else o.dflt
      bounds := if o.bounds ≠ y.bounds then o.bounds ++ y.bounds else o.bounds }
  | o, _ => o

/-- The inner loop of D:1088-1108. -/
def addParam (y : GParam) : List GParam → List GParam
  | [] => [y]
  | o :: l => if sameParam o y then mergeParam o y :: l else o :: addParam y l

/-- D:1123-1135: what happens to a predicate that is in both. -/
def mergePred : WPred → WPred → WPred
  | .ty lo t bo, .ty ly _ by' =>
    .ty (match lo, ly with
        | lo, none => lo
        | none, some b => some b
        | some a, some b => some (a ++ b))
      t (if bo ≠ by' then bo ++ by' else bo)
  | o, _ => o

/-- The inner loop of D:1119-1140. -/
def addPred (y : WPred) : List WPred → List WPred
  | [] => [y]
  | o :: l => if samePred o y then mergePred o y :: l else o :: addPred y l

/-- The parameters, D:1079-1112. -/
def mergeParams (x y : Generics) : Generics :=
  if x.angle = false ∧ x.preds = none then y
  else if y.angle = false ∧ y.preds = none then x
  else { x with params := y.params.foldl (fun out p => addParam p out) x.params }

/-- The where clauses, D:1113-1143. -/
def mergeWhere : Option (List WPred) → Option (List WPred) → Option (List WPred)
  | o, none => o
  | none, some wc => some wc
  | some o, some wc => some (wc.foldl (fun out p => addPred p out) o)

/-- `merge_generics`, D:1053-1145. -/
def mergeGenerics (x y : Generics) : Generics :=
  let out := mergeParams x y
  { out with preds := mergeWhere out.preds y.preds }

/-! ## `split_lifetimes` (D:1147-1235) -/

/-- `lifetimes_to_generics` with `lifetimes_to_generic_params`, D:1147-1168. -/
def ltsToGenerics (l : List LtParam) : Generics :=
  if l = [] then {} else { angle := true, params := l.map .lt, preds := none }

/-- The lifetimes of the arguments, D:1188-1199: for a receiver only that of a leading `&'a`. -/
def argLts : List FnArg → Gen (List Lt)
  | [] => return []
  | .receiver r _ _ _ :: l => do
    let b ← argLts l
    return (match r with | some (some lt) => [lt] | _ => []) ++ b
  | .typed _ _ t :: l => do
    let a ← findLts t
    return a ++ (← argLts l)

/-- The lifetimes of the return type, D:1201-1203. -/
def retLts : Ret → Gen (List Lt)
  | .unit => return []
  | .ty t => findLts t

/-- The loop of D:1207-1221. -/
def splitParams (alts rlts : List Lt) : List GParam → List TyParam × List LtParam × List LtParam
  | [] => ([], [], [])
  | p :: l =>
    let (tv, alv, rlv) := splitParams alts rlts l
    match p with
    | .lt p =>
      if p.lt ∈ rlts then (tv, alv, p :: rlv)
      else if p.lt ∈ alts then (tv, p :: alv, rlv)
      else (tv, alv, rlv)
    | .ty p => (p :: tv, alv, rlv)
    | .const _ _ => (tv, alv, rlv)

/-- `split_lifetimes`, D:1173-1235: the type generics, the lifetimes of the arguments only, and those
of the return type. -/
def splitLifetimes (g : Generics) (args : List FnArg) (rt : Ret) :
    Gen (Generics × List LtParam × List LtParam) :=
  if g.angle = false then return (g, [], [])
  else do
    let alts ← argLts args
    let rlts ← retLts rt
    let (tv, alv, rlv) := splitParams alts rlts g.params
    let tg : Generics :=
      if tv = [] then {} else { angle := g.angle, params := tv.map .ty, preds := g.preds }
    return (tg, alv, rlv)

/-- `staticize`, D:1287-1293. -/
def staticize (g : Generics) : Generics :=
  { g with params := g.params.map fun
    | .lt p => .lt { p with lt := "static" }
    | p => p }

end Mockall.Derive
