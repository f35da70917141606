import Verif.Lemmas.Target

/-! # Helper lemmas: verification at drop and at checkpoints -/

set_option linter.unusedSimpArgs false

namespace Mockall

open Spec

variable {V : Type}

/-- The panic of dropping one expectation outside of a panic, if any. -/
def Expectation.fault (info : FnInfo V) (e : Expectation V) : Option Panic :=
  match e.drop false info with
  | .ok () => none
  | .error p => some p

theorem Expectation.fault_none {info : FnInfo V} {e : Expectation V} :
    e.fault info = none ↔ e.drop false info = .ok () := by
  unfold Expectation.fault
  rcases e.drop false info with p | ⟨⟩ <;> simp

theorem Expectation.fault_some {info : FnInfo V} {e : Expectation V} {p : Panic} :
    e.fault info = some p ↔ e.drop false info = .error p := by
  unfold Expectation.fault
  rcases e.drop false info with p | ⟨⟩ <;> simp

/-- `none` is success. -/
def verdict : Option Panic → Except Panic Unit
  | none => .ok ()
  | some p => .error p

theorem dropAll_panicking (info : FnInfo V) (es : List (Expectation V)) : dropAll true info es = (.ok (), false) := by
  induction es with
  | nil => rfl
  | cons e es ih => simp [dropAll, Expectation.drop, Common.drop, ih]

theorem dropAll_eq (info : FnInfo V) (es : List (Expectation V)) :
    dropAll false info es = (verdict (es.findSome? (·.fault info)), false) := by
  induction es with
  | nil => rfl
  | cons e es ih =>
    simp only [dropAll, List.findSome?_cons, dropAll_panicking]
    unfold Expectation.fault
    rcases e.drop false info with p | ⟨⟩
    · rfl
    · exact ih

/-- The expectations of an object with the names of their functions, in the order in which they are verified:
field by field. -/
def Obj.order (env : Env V) (obj : Obj V) : List (FnInfo V × Expectation V) :=
  obj.flatMap fun s => (s.store.elems env).map fun e => (s.mi.base, e)

theorem findSome?_map_pair (info : FnInfo V) (es : List (Expectation V)) :
    (es.map fun e => (info, e)).findSome? (fun x => x.2.fault x.1) = es.findSome? (·.fault info) := by
  rw [List.findSome?_map]; rfl

theorem Obj.drop_panicking (env : Env V) (obj : Obj V) : obj.drop env true = (.ok (), false) := by
  induction obj with
  | nil => rfl
  | cons s ss ih => simp [Obj.drop, dropAll_panicking, ih]

theorem Obj.drop_eq (env : Env V) (obj : Obj V) :
    obj.drop env false = (verdict ((obj.order env).findSome? fun x => x.2.fault x.1), false) := by
  induction obj with
  | nil => rfl
  | cons s ss ih =>
    simp only [Obj.drop, dropAll_eq, Obj.order, List.flatMap_cons, List.findSome?_append, findSome?_map_pair]
    rcases hf : (s.store.elems env).findSome? (·.fault s.mi.base) with _ | p
    · simp only [hf, verdict, Option.or]
      exact ih
    · simp [hf, verdict, Obj.drop_panicking]

theorem Obj.checkpoint_eq (env : Env V) (obj : Obj V) :
    (obj.checkpoint env false).1 = (verdict ((obj.order env).findSome? fun x => x.2.fault x.1), false) := by
  induction obj with
  | nil => rfl
  | cons s ss ih =>
    simp only [Obj.checkpoint, dropAll_eq, Obj.order, List.flatMap_cons, List.findSome?_append, findSome?_map_pair]
    rcases hf : (s.store.elems env).findSome? (·.fault s.mi.base) with _ | p
    · simp only [hf, verdict, Option.or]
      exact ih
    · simp [hf, verdict]

/-- The fields up to and including the first with a fault are drained, the others are left alone. -/
theorem Obj.checkpoint_fields (env : Env V) (obj : Obj V) :
    (obj.checkpoint env false).2 =
      (List.take (obj.findIdx (fun s => (s.store.elems env).any fun e => (e.fault s.mi.base).isSome) + 1) obj).map
        (fun s => { s with store := s.store.drained }) ++
      List.drop (obj.findIdx (fun s => (s.store.elems env).any fun e => (e.fault s.mi.base).isSome) + 1) obj := by
  induction obj with
  | nil => rfl
  | cons s ss ih =>
    simp only [Obj.checkpoint, dropAll_eq, List.findIdx_cons]
    rcases hf : (s.store.elems env).findSome? (·.fault s.mi.base) with _ | p
    · have : ((s.store.elems env).any fun e => (e.fault s.mi.base).isSome) = false := by
        rw [List.any_eq_false]
        intro e he
        rw [List.findSome?_eq_none_iff] at hf
        simp [hf e he]
      simp only [hf, verdict, this, cond_false, List.take_succ_cons, List.map_cons, List.drop_succ_cons,
        List.cons_append]
      rw [ih]
    · have : ((s.store.elems env).any fun e => (e.fault s.mi.base).isSome) = true := by
        rw [List.any_eq_true]
        obtain ⟨e, he, h⟩ := List.exists_of_findSome?_eq_some hf
        exact ⟨e, he, by simp [h]⟩
      simp [hf, verdict, this]

/-- Iteration order of hash maps: any permutation. -/
def Env.Fair (env : Env V) : Prop := ∀ m, (env.ord m).Perm m

theorem Store.mem_elems {env : Env V} (hf : env.Fair) (st : Store V) (e : Expectation V) :
    e ∈ st.elems env ↔ e ∈ st.all := by
  cases st with
  | concrete es => rfl
  | generic m =>
    simp only [Store.elems, Store.all, List.mem_flatMap]
    constructor
    · rintro ⟨x, hx, he⟩; exact ⟨x, (hf m).mem_iff.mp hx, he⟩
    · rintro ⟨x, hx, he⟩; exact ⟨x, (hf m).mem_iff.mpr hx, he⟩

theorem Obj.mem_order {env : Env V} (hf : env.Fair) (obj : Obj V) (e : Expectation V) :
    (∃ i, (i, e) ∈ obj.order env) ↔ e ∈ obj.all := by
  simp only [Obj.order, Obj.all, List.mem_flatMap, List.mem_map]
  constructor
  · rintro ⟨i, s, hs, x, hx, heq⟩
    simp at heq
    obtain ⟨rfl, rfl⟩ := heq
    exact ⟨s, hs, (Store.mem_elems hf _ _).mp hx⟩
  · rintro ⟨s, hs, he⟩
    exact ⟨s.mi.base, s, hs, e, (Store.mem_elems hf _ _).mpr he, rfl⟩

theorem StaticFn.checkpoint_eq (env : Env V) (f : StaticFn V) :
    f.checkpoint env false =
      if f.poison then ((.error .poisoned, false), f)
      else ((verdict ((f.store.elems env).findSome? (·.fault f.mi.base)), false), { f with store := f.store.drained }) := by
  unfold StaticFn.checkpoint
  split <;> simp [dropAll_eq]

/-- A drained store of a method is a new store. -/
theorem Store.drained_new {ni : Bool} {n : Nat} {mi : MethodInfo V} {st : Store V} (h : st.Sorted ni n mi) :
    st.drained = Store.new mi := by
  have := h.generic
  unfold Store.new
  cases st <;> simp [Store.isGeneric] at this <;> simp [Store.drained, ← this]

end Mockall
