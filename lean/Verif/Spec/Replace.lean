import Verif.Spec.Syntax

/-! # Replacing whole types inside types -/

namespace Mockall.Spec

open Derive

/-- The path of a path type. -/
def pathOf : Ty → Option (Bool × List Seg)
  | .path c s => some (c, s)
  | .qpath _ _ c s => some (c, s)
  | _ => none

/-! `replace r t` replaces each path type `p` anywhere in `t` by `u` where `r p = some u`; the new types
are not searched again.  A trait bound is a bare path, so there only the path of `u` can be used. -/

mutual
def replace (r : Ty → Option Ty) : Ty → Ty
  | .array e l => .array (replace r e) l
  | .bareFn l i o => .bareFn l (replaces r i) (replaceRet r o)
  | .group e => .group (replace r e)
  | .implTrait b => .implTrait (replaceBounds r b)
  | .infer => .infer
  | .mac s => .mac s
  | .never => .never
  | .paren e => .paren (replace r e)
  | .path l s => (r (.path l s)).getD (.path l (replaceSegs r s))
  | .qpath q p l s => (r (.qpath q p l s)).getD (.qpath (replace r q) p l (replaceSegs r s))
  | .ptr m e => .ptr m (replace r e)
  | .ref l m e => .ref l m (replace r e)
  | .slice e => .slice (replace r e)
  | .traitObject b => .traitObject (replaceBounds r b)
  | .tuple l => .tuple (replaces r l)
  | .verbatim s => .verbatim s
def replaceRet (r : Ty → Option Ty) : Ret → Ret
  | .unit => .unit
  | .ty t => .ty (replace r t)
def replaceSeg (r : Ty → Option Ty) : Seg → Seg
  | .mk i a => .mk i (replaceArgs r a)
def replaceArgs (r : Ty → Option Ty) : Args → Args
  | .none => .none
  | .angle l => .angle (replaceGArgs r l)
  | .paren i o => .paren (replaces r i) (replaceRet r o)
def replaceGArg (r : Ty → Option Ty) : GArg → GArg
  | .lt l => .lt l
  | .ty t => .ty (replace r t)
  | .const e => .const e
  | .assocTy i t => .assocTy i (replace r t)
  | .assocConst i e => .assocConst i e
  | .constraint i b => .constraint i (replaceBounds r b)
def replaceBound (r : Ty → Option Ty) : Bound → Bound
  | .trait m l c s =>
    match (r (.path c s)).bind pathOf with
    | some (c', s') => .trait m l c' s'
    | none => .trait m l c (replaceSegs r s)
  | .lt l => .lt l
  | .other s => .other s
def replaces (r : Ty → Option Ty) : List Ty → List Ty
  | [] => []
  | t :: l => replace r t :: replaces r l
def replaceSegs (r : Ty → Option Ty) : List Seg → List Seg
  | [] => []
  | t :: l => replaceSeg r t :: replaceSegs r l
def replaceGArgs (r : Ty → Option Ty) : List GArg → List GArg
  | [] => []
  | t :: l => replaceGArg r t :: replaceGArgs r l
def replaceBounds (r : Ty → Option Ty) : List Bound → List Bound
  | [] => []
  | t :: l => replaceBound r t :: replaceBounds r l
end

/-- `r` only replaces types in which the name `n` occurs. -/
def Needs (r : Ty → Option Ty) (n : Ident) : Prop :=
  ∀ t u, r t = some u → ∃ b, .seg n b ∈ leaves t

/-- The name does not occur. -/
def Lacks (n : Ident) (x : Leaf) : Prop := ∀ b, x ≠ .seg n b

section
variable {r : Ty → Option Ty} {n : Ident}

theorem Needs.none (hr : Needs r n) {t : Ty} (h : All (Lacks n) (leaves t)) : r t = .none := by
  match e : r t with
  | .none => rfl
  | .some u =>
    obtain ⟨b, hb⟩ := hr t u e
    exact absurd rfl (h _ hb b)

mutual
/-- Where the name does not occur nothing changes. -/
theorem replace_id (hr : Needs r n) : ∀ t : Ty, All (Lacks n) (leaves t) → replace r t = t
  | .array e _, h => by rw [replace, replace_id hr e h]
  | .bareFn _ i o, h => by rw [replace, replaces_id hr i h.tail.left, replaceRet_id hr o h.tail.right]
  | .group e, h => by rw [replace, replace_id hr e h]
  | .implTrait b, h => by rw [replace, replaceBounds_id hr b h.tail]
  | .infer, _ => rfl
  | .mac _, _ => rfl
  | .never, _ => rfl
  | .paren e, h => by rw [replace, replace_id hr e h]
  | .path l s, h => by rw [replace, hr.none h, Option.getD_none, replaceSegs_id hr s h]
  | .qpath q p l s, h => by
    rw [replace, hr.none h, Option.getD_none, replace_id hr q h.tail.left,
      replaceSegs_id hr s h.tail.right]
  | .ptr _ e, h => by rw [replace, replace_id hr e h]
  | .ref l _ e, h => by rw [replace, replace_id hr e h.right]
  | .slice e, h => by rw [replace, replace_id hr e h]
  | .traitObject b, h => by rw [replace, replaceBounds_id hr b h]
  | .tuple l, h => by rw [replace, replaces_id hr l h]
  | .verbatim _, _ => rfl
theorem replaceRet_id (hr : Needs r n) : ∀ t : Ret, All (Lacks n) (leavesRet t) → replaceRet r t = t
  | .unit, _ => rfl
  | .ty t, h => by rw [replaceRet, replace_id hr t h]
theorem replaceSeg_id (hr : Needs r n) : ∀ t : Seg, All (Lacks n) (leavesSeg t) → replaceSeg r t = t
  | .mk i a, h => by rw [replaceSeg, replaceArgs_id hr a h.tail]
theorem replaceArgs_id (hr : Needs r n) : ∀ t : Args, All (Lacks n) (leavesArgs t) → replaceArgs r t = t
  | .none, _ => rfl
  | .angle l, h => by rw [replaceArgs, replaceGArgs_id hr l h]
  | .paren i o, h => by
    rw [replaceArgs, replaces_id hr i h.tail.left, replaceRet_id hr o h.tail.right]
theorem replaceGArg_id (hr : Needs r n) : ∀ t : GArg, All (Lacks n) (leavesGArg t) → replaceGArg r t = t
  | .lt l, h => rfl
  | .ty t, h => by rw [replaceGArg, replace_id hr t h]
  | .const _, _ => rfl
  | .assocTy _ t, h => by rw [replaceGArg, replace_id hr t h]
  | .assocConst _ _, _ => rfl
  | .constraint _ b, h => by rw [replaceGArg, replaceBounds_id hr b h]
theorem replaceBound_id (hr : Needs r n) : ∀ t : Bound, All (Lacks n) (leavesBound t) → replaceBound r t = t
  | .trait m l c s, h => by
    have : r (.path c s) = none := hr.none (t := .path c s) h
    rw [replaceBound, this]
    simp only [Option.bind_none]
    rw [replaceSegs_id hr s h]
  | .lt l, h => rfl
  | .other _, _ => rfl
theorem replaces_id (hr : Needs r n) : ∀ t : List Ty, All (Lacks n) (leavesTys t) → replaces r t = t
  | [], _ => rfl
  | t :: l, h => by rw [replaces, replace_id hr t h.left, replaces_id hr l h.right]
theorem replaceSegs_id (hr : Needs r n) : ∀ t : List Seg, All (Lacks n) (leavesSegs t) → replaceSegs r t = t
  | [], _ => rfl
  | t :: l, h => by rw [replaceSegs, replaceSeg_id hr t h.left, replaceSegs_id hr l h.right]
theorem replaceGArgs_id (hr : Needs r n) : ∀ t : List GArg, All (Lacks n) (leavesGArgs t) → replaceGArgs r t = t
  | [], _ => rfl
  | t :: l, h => by rw [replaceGArgs, replaceGArg_id hr t h.left, replaceGArgs_id hr l h.right]
theorem replaceBounds_id (hr : Needs r n) : ∀ t : List Bound, All (Lacks n) (leavesBounds t) → replaceBounds r t = t
  | [], _ => rfl
  | t :: l, h => by rw [replaceBounds, replaceBound_id hr t h.left, replaceBounds_id hr l h.right]
end

end

/-! ## Associated types -/

/-- The type is `Self`.  (`::Self` and `<..>::Self` cannot be written, the macros do not tell them from
`Self`.) -/
def isSelf (t : Ty) : Bool :=
  match pathOf t with
  | some (_, [s]) => s.id = "Self"
  | _ => false

/-- The associated type a type refers to: `Self::T`, or `<Self as Trait>::T`, where `trait` is the trait
in hand. -/
def assocOf (trait : Ident) : Ty → Option Ident
  | .path false [s, t] => if s.id = "Self" then some t.id else none
  | .qpath q 1 _ [s, t] => if isSelf q ∧ s.id = trait then some t.id else none
  | _ => none

/-- Replace each associated type by what it stands for. -/
def assocReplace (σ : Ident → Option Ty) (trait : Ident) (t : Ty) : Option Ty :=
  (assocOf trait t).bind σ

end Mockall.Spec
