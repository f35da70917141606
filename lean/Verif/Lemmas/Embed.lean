import Verif.Spec.Program

/-! # Part of the runtime's state

The objects and static methods of one mock are some of those of the program; operations on them are operations
on the whole that leave the rest as it is. -/

namespace Mockall.Props

open Spec

variable {V : Type}

/-- `z` is part of `y`: its objects are at `f`, its static methods at `g`. -/
structure Embed (f g : Nat → Nat) (z y : Sys V) : Prop where
  objs : ∀ (o : Nat) a, z.objs[o]? = some a → y.objs[f o]? = some a
  statics : ∀ (j : Nat) a, z.statics[j]? = some a → y.statics[g j]? = some a
  world : z.world = y.world

/-- `f` gives different numbers to the first `n`. -/
def InjBelow (n : Nat) (f : Nat → Nat) : Prop := ∀ a b, a < n → b < n → f a = f b → a = b

theorem some_lt {α : Type} {l : List α} {i : Nat} {a : α} (h : l[i]? = some a) : i < l.length :=
  (List.getElem?_eq_some_iff.1 h).1

theorem embed_set {α : Type} {f : Nat → Nat} {l k : List α} (hf : InjBelow l.length f)
    (h : ∀ (o : Nat) a, l[o]? = some a → k[f o]? = some a) {i : Nat} (hi : i < l.length) (b : α) (o : Nat) (a : α)
    (ho : (l.set i b)[o]? = some a) : (k.set (f i) b)[f o]? = some a := by
  have hk := some_lt (h i _ (List.getElem?_eq_getElem hi))
  rw [List.getElem?_set] at ho ⊢
  by_cases e : i = o
  · subst e
    rw [if_pos rfl, if_pos hi] at ho
    rw [if_pos rfl, if_pos hk]
    exact ho
  · rw [if_neg e] at ho
    rw [if_neg fun e' => e (hf _ _ hi (some_lt ho) e')]
    exact h o a ho

theorem set_frame {α : Type} {f : Nat → Nat} {n i : Nat} (hi : i < n) (k : List α) (b : α) (a : Nat)
    (h : ∀ o, o < n → f o ≠ a) : (k.set (f i) b)[a]? = k[a]? := by
  rw [List.getElem?_set, if_neg (h i hi)]

theorem embed_module {f : Nat → Nat} (env : Env V) : ∀ (fs : List Nat) (l k : List (StaticFn V)),
    InjBelow l.length f → (∀ (o : Nat) a, l[o]? = some a → k[f o]? = some a) →
    (checkpointModule env fs l).1 ≠ none →
    (checkpointModule env (fs.map f) k).1 = (checkpointModule env fs l).1 ∧
    (checkpointModule env fs l).2.length = l.length ∧
    (∀ (o : Nat) a, (checkpointModule env fs l).2[o]? = some a →
      (checkpointModule env (fs.map f) k).2[f o]? = some a) ∧
    ∀ a : Nat, (∀ o, o < l.length → f o ≠ a) → (checkpointModule env (fs.map f) k).2[a]? = k[a]?
  | [], _, _, _, h, _ => ⟨rfl, rfl, h, fun _ _ => rfl⟩
  | i :: fs, l, k, hf, h, hv => by
    cases hi : l[i]? with
    | none => simp [checkpointModule, hi] at hv
    | some sf =>
      have hk := h i sf hi
      have hlt := some_lt hi
      simp only [checkpointModule, hi, List.map_cons, hk] at hv ⊢
      cases he : (sf.checkpoint env false).1.1 with
      | error p =>
        simp only [List.length_set]
        exact ⟨trivial, trivial, embed_set hf h hlt _, fun a ha => set_frame hlt _ _ _ ha⟩
      | ok u =>
        simp only [he] at hv
        simp only
        have ih := embed_module env fs (l.set i (sf.checkpoint env false).2)
          (k.set (f i) (sf.checkpoint env false).2) (by rwa [List.length_set])
          (embed_set hf h hlt _) hv
        rw [List.length_set] at ih
        refine ⟨ih.1, ih.2.1, ih.2.2.1, fun a ha => ?_⟩
        rw [ih.2.2.2 a ha, set_frame hlt _ _ _ ha]

/-- An operation on the part, done on the whole. -/
theorem embed_step {f g : Nat → Nat} {z y : Sys V} {env : Env V} {op : Op V} (h : Embed f g z y)
    (hf : InjBelow z.objs.length f) (hg : InjBelow z.statics.length g) (hv : (z.step env op).1 ≠ .invalid)
    (hnew : f z.objs.length = y.objs.length) :
    (y.step env (renumber f g op)).1 = (z.step env op).1 ∧
    Embed f g (z.step env op).2 (y.step env (renumber f g op)).2 ∧
    (∀ a : Nat, (∀ o, o < z.objs.length + 1 → f o ≠ a) →
      (y.step env (renumber f g op)).2.objs[a]? = y.objs[a]?) ∧
    (∀ a : Nat, (∀ j, j < z.statics.length → g j ≠ a) →
      (y.step env (renumber f g op)).2.statics[a]? = y.statics[a]?) := by
  obtain ⟨h1, h2, h3⟩ := h
  have fr : ∀ {i : Nat}, i < z.objs.length → ∀ (b : Option (Obj V)) (a : Nat),
      (∀ o, o < z.objs.length + 1 → f o ≠ a) → (y.objs.set (f i) b)[a]? = y.objs[a]? :=
    fun hi b a ha => set_frame (n := z.objs.length + 1) (by omega) _ _ _ ha
  have frs : ∀ {i : Nat}, i < z.statics.length → ∀ (b : StaticFn V) (a : Nat),
      (∀ j, j < z.statics.length → g j ≠ a) → (y.statics.set (g i) b)[a]? = y.statics[a]? :=
    fun hi b a ha => set_frame hi _ _ _ ha
  cases op with
  | new ms =>
    refine ⟨rfl, ⟨fun o a ho => ?_, h2, h3⟩, fun a ha => ?_, fun _ _ => rfl⟩
    · simp only [Sys.step, renumber] at ho ⊢
      by_cases e : o = z.objs.length
      · subst e
        rw [hnew]
        simpa using ho
      · have hlt := some_lt ho
        rw [List.length_append, List.length_singleton] at hlt
        rw [List.getElem?_append_left (by omega)] at ho
        have := h1 o a ho
        rw [List.getElem?_append_left (some_lt this)]
        exact this
    · simp only [Sys.step, renumber]
      have hne : y.objs.length ≠ a := hnew ▸ ha _ (by omega)
      by_cases hlt : a < y.objs.length
      · rw [List.getElem?_append_left hlt]
      · rw [List.getElem?_eq_none_iff.2 (by rw [List.length_append, List.length_singleton]; omega),
          List.getElem?_eq_none_iff.2 (by omega)]
  | expect o m k bs =>
    simp only [Sys.step, renumber] at hv ⊢
    cases ho : z.objs[o]? with
    | none => simp [ho] at hv
    | some a =>
      cases a with
      | none => simp [ho] at hv
      | some obj =>
        simp only [ho, h1 o _ ho, ← h3] at hv ⊢
        cases hr : obj.expect env.nightly m k bs z.world with
        | none => simp [hr] at hv
        | some r =>
          exact ⟨rfl, ⟨embed_set hf h1 (some_lt ho) _, h2, rfl⟩, fr (some_lt ho) _, fun _ _ => rfl⟩
  | call o m k tid args upd =>
    simp only [Sys.step, renumber] at hv ⊢
    cases ho : z.objs[o]? with
    | none => simp [ho] at hv
    | some a =>
      cases a with
      | none => simp [ho] at hv
      | some obj =>
        simp only [ho, h1 o _ ho, ← h3] at hv ⊢
        cases hr : obj.call ⟨env.nightly, tid, env.dbg, upd⟩ m k args z.world with
        | none => simp [hr] at hv
        | some r =>
          exact ⟨rfl, ⟨embed_set hf h1 (some_lt ho) _, h2, rfl⟩, fr (some_lt ho) _, fun _ _ => rfl⟩
  | checkpoint o =>
    simp only [Sys.step, renumber] at hv ⊢
    cases ho : z.objs[o]? with
    | none => simp [ho] at hv
    | some a =>
      cases a with
      | none => simp [ho] at hv
      | some obj =>
        simp only [h1 o _ ho]
        exact ⟨trivial, ⟨embed_set hf h1 (some_lt ho) _, h2, h3⟩, fr (some_lt ho) _, fun _ _ => trivial⟩
  | drop o b =>
    simp only [Sys.step, renumber] at hv ⊢
    cases ho : z.objs[o]? with
    | none => simp [ho] at hv
    | some a =>
      cases a with
      | none => simp [ho] at hv
      | some obj =>
        simp only [h1 o _ ho]
        exact ⟨trivial, ⟨embed_set hf h1 (some_lt ho) _, h2, h3⟩, fr (some_lt ho) _, fun _ _ => trivial⟩
  | sexpect j k bs =>
    simp only [Sys.step, renumber] at hv ⊢
    cases hj : z.statics[j]? with
    | none => simp [hj] at hv
    | some sf =>
      simp only [h2 j _ hj, ← h3]
      exact ⟨trivial, ⟨h1, embed_set hg h2 (some_lt hj) _, rfl⟩, fun _ _ => trivial, frs (some_lt hj) _⟩
  | scall j k tid args =>
    simp only [Sys.step, renumber] at hv ⊢
    cases hj : z.statics[j]? with
    | none => simp [hj] at hv
    | some sf =>
      simp only [h2 j _ hj, ← h3]
      exact ⟨trivial, ⟨h1, embed_set hg h2 (some_lt hj) _, rfl⟩, fun _ _ => trivial, frs (some_lt hj) _⟩
  | scheckpoint j =>
    simp only [Sys.step, renumber] at hv ⊢
    cases hj : z.statics[j]? with
    | none => simp [hj] at hv
    | some sf =>
      simp only [h2 j _ hj]
      exact ⟨trivial, ⟨h1, embed_set hg h2 (some_lt hj) _, h3⟩, fun _ _ => trivial, frs (some_lt hj) _⟩
  | sdrop j b =>
    simp only [Sys.step, renumber] at hv ⊢
    cases hj : z.statics[j]? with
    | none => simp [hj] at hv
    | some sf =>
      simp only [h2 j _ hj]
      exact ⟨trivial, ⟨h1, embed_set hg h2 (some_lt hj) _, h3⟩, fun _ _ => trivial, frs (some_lt hj) _⟩
  | mcheckpoint fs =>
    simp only [Sys.step, renumber] at hv ⊢
    have hv' : (checkpointModule env fs z.statics).1 ≠ none := by
      intro e
      simp [e] at hv
    obtain ⟨a1, -, a3, a4⟩ := embed_module env fs _ _ hg h2 hv'
    exact ⟨by rw [a1], ⟨h1, a3, h3⟩, fun _ _ => trivial, a4⟩

theorem renumber_congr {f f' g : Nat → Nat} {z : Sys V} {env : Env V} {op : Op V}
    (hv : (z.step env op).1 ≠ .invalid) (h : ∀ o, o < z.objs.length → f o = f' o) :
    renumber f g op = renumber f' g op := by
  have : ∀ {o : Nat}, z.objs[o]? ≠ none → f o = f' o := by
    intro o ho
    cases e : z.objs[o]? with
    | none => exact absurd e ho
    | some a => exact h o (some_lt e)
  cases op with
  | new => rfl
  | expect o => rw [renumber, renumber, this fun e => hv (by simp [Sys.step, e])]
  | call o => rw [renumber, renumber, this fun e => hv (by simp [Sys.step, e])]
  | checkpoint o => rw [renumber, renumber, this fun e => hv (by simp [Sys.step, e])]
  | drop o => rw [renumber, renumber, this fun e => hv (by simp [Sys.step, e])]
  | _ => rfl

theorem step_length (z : Sys V) (env : Env V) (op : Op V) :
    (z.step env op).2.objs.length ≤ z.objs.length + 1 := by
  cases op <;> simp only [Sys.step] <;> (repeat' split) <;> simp

theorem step_grows (z : Sys V) (env : Env V) (op : Op V) :
    z.objs.length ≤ (z.step env op).2.objs.length := by
  cases op <;> simp only [Sys.step] <;> (repeat' split) <;> simp

end Mockall.Props
