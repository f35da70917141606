import Verif.Rt.Store

/-! # Mock objects (S:244-460, F:581-600) -/

namespace Mockall

variable {V : Type}

/-- One expectation field of a mock struct (F:746-763 `field_definition`), with what the generated
methods know about it. -/
structure Slot (V : Type) where
  mi : MethodInfo V
  store : Store V

/-- A mock object: its expectation fields in declaration order, those of the trait substructs first
(S:288-299), flattened.  `Derive/Layout` computes this list from a mock definition. -/
abbrev Obj (V : Type) := List (Slot V)

/-- `Default::default()` of a mock struct, S:301-312 and S:330-337. -/
def Obj.new (ms : List (MethodInfo V)) : Obj V := ms.map fun mi => ⟨mi, Store.new mi⟩

/-- Calling instance method number `i`, F:564-575. -/
def Obj.call (cx : Cx V) (i : Nat) (k : Key) (args : List V) (o : Obj V) (w : World V) :
    Option (Except Panic V × Obj V × World V) :=
  match o[i]? with
  | none => none
  | some s =>
    let r := s.store.call cx s.mi k args w
    some (expectMatch cx (s.mi.fn k) args r.1, o.set i { s with store := r.2.1 }, r.2.2)

/-- `expect_m()` for method number `i` followed by builder calls, F:655-706. -/
def Obj.expect (nightly : Bool) (i : Nat) (k : Key) (bs : List (Build V)) (o : Obj V) (w : World V) :
    Option (Except Panic Unit × Obj V × World V) :=
  match o[i]? with
  | none => none
  | some s =>
    let r := s.store.expect nightly s.mi k bs w
    some (r.1, o.set i { s with store := r.2.1 }, r.2.2)

/-- The generated `checkpoint` method, S:353-357 (trait substructs, S:447-451, first): one statement
`{ self.name.checkpoint(); }` (F:598) per instance method, in field order.  Each drains its store and
drops the drained expectations at the end of the statement; a panic leaves the later fields alone.
The `Bool` says whether the process would abort (second panic while panicking).

Simplification: if an expectation inside a `hash_map::Drain` panics, the rest of the drained
expectations is leaked rather than dropped while panicking; the drop of an expectation while
panicking has no effect (C26), so this is not observable here. -/
def Obj.checkpoint (env : Env V) (panicking : Bool) : Obj V → (Except Panic Unit × Bool) × Obj V
  | [] => ((.ok (), false), [])
  | s :: ss =>
    let s' : Slot V := { s with store := s.store.drained }
    match dropAll panicking s.mi.base (s.store.elems env) with
    | (.error p, ab) => ((.error p, ab), s' :: ss)
    | (.ok (), _) =>
      let r := Obj.checkpoint env panicking ss
      (r.1, s' :: r.2)

/-- Dropping a mock object: the compiler drops the fields in declaration order; when one panics the
others are dropped while panicking, and a further panic aborts (second component). -/
def Obj.drop (env : Env V) (panicking : Bool) : Obj V → Except Panic Unit × Bool
  | [] => (.ok (), false)
  | s :: ss =>
    match dropAll panicking s.mi.base (s.store.elems env) with
    | (.error p, ab) =>
      let r := Obj.drop env true ss
      (.error p, ab || r.2 || (match r.1 with | .ok () => false | .error _ => true))
    | (.ok (), _) => Obj.drop env panicking ss

end Mockall
