import Verif.Spec.Syntax
import Verif.Spec.Args
import Verif.Derive.Build

/-! # Trait objects without a lifetime

Rust adds the lifetime of the reference to `&dyn T` and `&mut dyn T`. -/

namespace Mockall.Spec

open Derive

/-- The object has a lifetime among its bounds. -/
def Bounded (b : List Bound) : Prop := ∃ l, .lt l ∈ b

/-- The type is `dyn T`, maybe in parentheses, without a lifetime. -/
def isImplicit : Ty → Bool
  | .traitObject b => b.all fun | .lt _ => false | _ => true
  | .paren t => isImplicit t
  | .group t => isImplicit t
  | _ => false

/-! `implicits t` counts the references to trait objects without a lifetime anywhere in `t`. -/

mutual
def implicits : Ty → Nat
  | .array e _ => implicits e
  | .bareFn _ i o => implicitsTys i + implicitsRet o
  | .group e => implicits e
  | .implTrait b => implicitsBounds b
  | .infer => 0
  | .mac _ => 0
  | .never => 0
  | .paren e => implicits e
  | .path _ s => implicitsSegs s
  | .qpath q _ _ s => implicits q + implicitsSegs s
  | .ptr _ e => implicits e
  | .ref _ _ e => (if isImplicit e then 1 else 0) + implicits e
  | .slice e => implicits e
  | .traitObject b => implicitsBounds b
  | .tuple l => implicitsTys l
  | .verbatim _ => 0
def implicitsRet : Ret → Nat
  | .unit => 0
  | .ty t => implicits t
def implicitsSeg : Seg → Nat
  | .mk _ a => implicitsArgs a
def implicitsArgs : Args → Nat
  | .none => 0
  | .angle l => implicitsGArgs l
  | .paren i o => implicitsTys i + implicitsRet o
def implicitsGArg : GArg → Nat
  | .lt _ => 0
  | .ty t => implicits t
  | .const _ => 0
  | .assocTy _ t => implicits t
  | .assocConst _ _ => 0
  | .constraint _ b => implicitsBounds b
def implicitsBound : Bound → Nat
  | .trait _ _ _ s => implicitsSegs s
  | .lt _ => 0
  | .other _ => 0
def implicitsTys : List Ty → Nat
  | [] => 0
  | t :: l => implicits t + implicitsTys l
def implicitsSegs : List Seg → Nat
  | [] => 0
  | t :: l => implicitsSeg t + implicitsSegs l
def implicitsGArgs : List GArg → Nat
  | [] => 0
  | t :: l => implicitsGArg t + implicitsGArgs l
def implicitsBounds : List Bound → Nat
  | [] => 0
  | t :: l => implicitsBound t + implicitsBounds l
end

/-! `hidden t` counts those of them that `add_lifetime_parameters` does not look at: in the arguments of
paths and traits, behind pointers and in `fn(..)`. -/

mutual
def hidden : Ty → Nat
  | .array e _ => hidden e
  | .slice e => hidden e
  | .tuple l => hiddens l
  | .ref _ _ e => hidden e
  | .paren e => hidden e
  | t => implicits t
def hiddens : List Ty → Nat
  | [] => 0
  | t :: l => hidden t + hiddens l
end

/-- `t'` is `t`, where some trait objects without a lifetime have got the lifetime `l`; references to
trait objects have got parentheses. -/
inductive Explicit (l : Lt) : Ty → Ty → Prop
  | object (lt m b) (h : ¬ Bounded b) :
    Explicit l (.ref lt m (.traitObject b)) (.ref lt m (.paren (.traitObject (b ++ [.lt l]))))
  | object' (lt m b) (h : ¬ Bounded b) :
    Explicit l (.ref lt m (.paren (.traitObject b))) (.ref lt m (.paren (.traitObject (b ++ [.lt l]))))
  | bounded (lt m b) (h : Bounded b) :
    Explicit l (.ref lt m (.traitObject b)) (.ref lt m (.paren (.traitObject b)))
  | ref (lt m) {t t'} (h : Explicit l t t') : Explicit l (.ref lt m t) (.ref lt m t')
  | array (n) {t t'} (h : Explicit l t t') : Explicit l (.array t n) (.array t' n)
  | slice {t t'} (h : Explicit l t t') : Explicit l (.slice t) (.slice t')
  | nil : Explicit l (.tuple []) (.tuple [])
  | cons {t t' ts ts'} (h : Explicit l t t') (hs : Explicit l (.tuple ts) (.tuple ts')) :
    Explicit l (.tuple (t :: ts)) (.tuple (t' :: ts'))
  | same (t) : Explicit l t t

/-- The lifetime for the argument `i`. -/
def objectLt (i : Ident) : Lt := "__mockall_" ++ i

/-- The arguments become explicit; `ls` are the lifetimes used, in order, one for each object. -/
inductive Explicits : List FnArg → List FnArg → List Lt → Prop
  | nil : Explicits [] [] []
  | receiver (r m c t) {as as' ls} (hs : Explicits as as' ls) :
    Explicits (.receiver r m c t :: as) (.receiver r m c t :: as') ls
  | typed (a m i t t' n) {as as' ls} (h : Explicit (objectLt i) t t') (hn : implicits t = implicits t' + n)
    (hs : Explicits as as' ls) :
    Explicits (.typed a (.ident false m i false) t :: as) (.typed a (.ident false m i false) t' :: as')
      (List.replicate n (objectLt i) ++ ls)

/-- The name of an argument. -/
def argName : FnArg → Option Ident
  | .typed _ (.ident _ _ i _) _ => some i
  | _ => none

/-! Types in which `add_lifetime_parameters` finds its way. -/

mutual
def seesThrough : Ty → Bool
  | .array e _ => seesThrough e
  | .slice e => seesThrough e
  | .tuple l => seesThroughs l
  | .ref _ _ (.traitObject _) => true
  | .ref _ _ (.paren (.traitObject _)) => true
  | .ref _ _ e => seesThrough e
  | .path _ _ => true
  | .qpath _ _ _ _ => true
  | .ptr _ _ => true
  | .bareFn _ _ _ => true
  | .implTrait _ => true
  | _ => false
def seesThroughs : List Ty → Bool
  | [] => true
  | t :: l => seesThrough t && seesThroughs l
end

end Mockall.Spec
