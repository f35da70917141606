import Verif.Spec.Objects
import Verif.Derive.Mockable
import Verif.Props.DeriveStruct

/-! # C64: trait objects get explicit lifetimes -/

namespace Mockall.Props

open Derive Spec

/-! ## One type -/

theorem any_isLt {b : List Bound} : b.any Bound.isLt = true ↔ Bounded b := by
  simp only [List.any_eq_true, Bounded]
  constructor
  · rintro ⟨x, hx, h⟩
    cases x with
    | lt l => exact ⟨l, hx⟩
    | «trait» m l c s => simp [Bound.isLt] at h
    | other s => simp [Bound.isLt] at h
  · rintro ⟨l, hl⟩
    exact ⟨_, hl, rfl⟩

theorem isImplicit_object {b : List Bound} : isImplicit (.traitObject b) = true ↔ ¬ Bounded b := by
  simp only [isImplicit, List.all_eq_true, Bounded]
  constructor
  · rintro h ⟨l, hl⟩
    simpa using h _ hl
  · intro h x hx
    cases x with
    | lt l => exact absurd ⟨l, hx⟩ h
    | «trait» m l c s => rfl
    | other s => rfl

theorem implicitsBounds_lt (l : Lt) : ∀ b : List Bound, implicitsBounds (b ++ [.lt l]) = implicitsBounds b
  | [] => rfl
  | x :: b => by simp only [List.cons_append, implicitsBounds, implicitsBounds_lt l b]

/-- One object. -/
theorem addToTraitObject_ok {m : Bool} {i : Ident} {b b' : List Bound} {p : List GParam}
    (h : addToTraitObject (.ident false m i false) b = .ok (b', p)) :
    (Bounded b ∧ b' = b ∧ p = []) ∨
    (¬ Bounded b ∧ b' = b ++ [.lt (objectLt i)] ∧ p = [.lt { lt := objectLt i }]) := by
  rw [addToTraitObject] at h
  split at h
  · rename_i hb
    simp only [gen_pure_ok, Prod.mk.injEq] at h
    exact .inl ⟨any_isLt.1 hb, h.1.symm, h.2.symm⟩
  · rename_i hb
    simp only [argIdent, gen_bind_ok, gen_pure_ok, Bool.false_eq_true, if_false, Prod.mk.injEq] at h
    obtain ⟨_, rfl, h⟩ := h
    exact .inr ⟨fun k => hb (any_isLt.2 k), h.1.symm, h.2.symm⟩

mutual
theorem addToType_ok {m : Bool} {i : Ident} : ∀ {t t' : Ty} {p : List GParam},
    addToType (.ident false m i false) t = .ok (t', p) →
    ∃ n, Explicit (objectLt i) t t' ∧ implicits t' = hidden t ∧ implicits t = hidden t + n ∧
      p = List.replicate n (.lt { lt := objectLt i })
  | .array e l, t', p, h => by
    simp only [addToType, gen_bind_ok, gen_pure_ok, Prod.mk.injEq] at h
    obtain ⟨⟨e', p'⟩, he, rfl, rfl⟩ := h
    obtain ⟨n, h1, h2, h3, h4⟩ := addToType_ok he
    exact ⟨n, .array l h1, h2, h3, h4⟩
  | .slice e, t', p, h => by
    simp only [addToType, gen_bind_ok, gen_pure_ok, Prod.mk.injEq] at h
    obtain ⟨⟨e', p'⟩, he, rfl, rfl⟩ := h
    obtain ⟨n, h1, h2, h3, h4⟩ := addToType_ok he
    exact ⟨n, .slice h1, h2, h3, h4⟩
  | .tuple l, t', p, h => by
    simp only [addToType, gen_bind_ok, gen_pure_ok, Prod.mk.injEq] at h
    obtain ⟨⟨e', p'⟩, he, rfl, rfl⟩ := h
    obtain ⟨n, h1, h2, h3, h4⟩ := addToTypes_ok he
    exact ⟨n, h1, h2, h3, h4⟩
  | .bareFn l j o, t', p, h => by
    simp only [addToType, gen_pure_ok, Prod.mk.injEq] at h
    obtain ⟨rfl, rfl⟩ := h
    exact ⟨0, .same _, rfl, rfl, rfl⟩
  | .implTrait b, t', p, h => by
    simp only [addToType, gen_pure_ok, Prod.mk.injEq] at h
    obtain ⟨rfl, rfl⟩ := h
    exact ⟨0, .same _, rfl, rfl, rfl⟩
  | .path l s, t', p, h => by
    simp only [addToType, gen_pure_ok, Prod.mk.injEq] at h
    obtain ⟨rfl, rfl⟩ := h
    exact ⟨0, .same _, rfl, rfl, rfl⟩
  | .qpath q k l s, t', p, h => by
    simp only [addToType, gen_pure_ok, Prod.mk.injEq] at h
    obtain ⟨rfl, rfl⟩ := h
    exact ⟨0, .same _, rfl, rfl, rfl⟩
  | .ptr k e, t', p, h => by
    simp only [addToType, gen_pure_ok, Prod.mk.injEq] at h
    obtain ⟨rfl, rfl⟩ := h
    exact ⟨0, .same _, rfl, rfl, rfl⟩
  | .ref l k (.paren (.traitObject b)), t', p, h => by
    simp only [addToType, gen_bind_ok, gen_pure_ok, Prod.mk.injEq] at h
    obtain ⟨⟨b', p'⟩, hb, rfl, rfl⟩ := h
    have e : ∀ b, isImplicit (.paren (.traitObject b)) = isImplicit (.traitObject b) := fun _ => rfl
    rcases addToTraitObject_ok hb with ⟨h1, rfl, rfl⟩ | ⟨h1, rfl, rfl⟩
    · have hi : isImplicit (.traitObject b') = false := by
        rw [← Bool.not_eq_true, isImplicit_object]; simpa using h1
      exact ⟨0, .same _, by simp [implicits, hidden, e, hi], by simp [implicits, hidden, e, hi], rfl⟩
    · have hi : isImplicit (.traitObject b) = true := isImplicit_object.2 h1
      have hi' : isImplicit (.traitObject (b ++ [.lt (objectLt i)])) = false := by
        rw [← Bool.not_eq_true, isImplicit_object]; simp [Bounded]
      exact ⟨1, .object' _ _ _ h1, by simp [implicits, hidden, e, hi', implicitsBounds_lt],
        by simp [implicits, hidden, e, hi, Nat.add_comm], rfl⟩
  | .ref l k (.traitObject b), t', p, h => by
    simp only [addToType, gen_bind_ok, gen_pure_ok, Prod.mk.injEq] at h
    obtain ⟨⟨b', p'⟩, hb, rfl, rfl⟩ := h
    have e : ∀ b, isImplicit (.paren (.traitObject b)) = isImplicit (.traitObject b) := fun _ => rfl
    rcases addToTraitObject_ok hb with ⟨h1, rfl, rfl⟩ | ⟨h1, rfl, rfl⟩
    · have hi : isImplicit (.traitObject b') = false := by
        rw [← Bool.not_eq_true, isImplicit_object]; simpa using h1
      exact ⟨0, .bounded _ _ _ h1, by simp [implicits, hidden, e, hi], by simp [implicits, hidden, hi], rfl⟩
    · have hi : isImplicit (.traitObject b) = true := isImplicit_object.2 h1
      have hi' : isImplicit (.traitObject (b ++ [.lt (objectLt i)])) = false := by
        rw [← Bool.not_eq_true, isImplicit_object]; simp [Bounded]
      exact ⟨1, .object _ _ _ h1, by simp [implicits, hidden, e, hi', implicitsBounds_lt],
        by simp [implicits, hidden, hi, Nat.add_comm], rfl⟩
  | .ref l k (.array e n), t', p, h => by
    simp only [addToType, gen_bind_ok, gen_pure_ok, Prod.mk.injEq] at h
    obtain ⟨e', ⟨⟨e'', p'⟩, he, rfl⟩, rfl, rfl⟩ := h
    obtain ⟨n', h1, h2, h3, h4⟩ := addToType_ok he
    refine ⟨n', .ref l k (.array n h1), ?_, ?_, h4⟩ <;> simp [implicits, hidden, isImplicit, h2, h3]
  | .ref l k (.slice e), t', p, h => by
    simp only [addToType, gen_bind_ok, gen_pure_ok, Prod.mk.injEq] at h
    obtain ⟨e', ⟨⟨e'', p'⟩, he, rfl⟩, rfl, rfl⟩ := h
    obtain ⟨n', h1, h2, h3, h4⟩ := addToType_ok he
    refine ⟨n', .ref l k (.slice h1), ?_, ?_, h4⟩ <;> simp [implicits, hidden, isImplicit, h2, h3]
  | .ref l k (.tuple e), t', p, h => by
    simp only [addToType, gen_bind_ok, gen_pure_ok, Prod.mk.injEq] at h
    obtain ⟨e', ⟨⟨e'', p'⟩, he, rfl⟩, rfl, rfl⟩ := h
    obtain ⟨n', h1, h2, h3, h4⟩ := addToTypes_ok he
    refine ⟨n', .ref l k h1, ?_, ?_, h4⟩ <;> simp_all [implicits, hidden, isImplicit]
  | .ref l k (.ref l2 k2 e), t', p, h => by
    rw [addToType] at h
    · simp only [gen_bind_ok, gen_pure_ok, Prod.mk.injEq] at h
      obtain ⟨⟨e', p'⟩, he, rfl, rfl⟩ := h
      obtain ⟨n', h1, h2, h3, h4⟩ := addToType_ok he
      have hi : isImplicit e' = false := by
        cases h1 <;> rfl
      refine ⟨n', .ref l k h1, ?_, ?_, h4⟩ <;> simp [implicits, hidden, isImplicit, hi] <;>
        simp only [implicits, hidden] at h2 h3 <;> omega
    · exact fun _ h => by cases h
    · exact fun _ h => by cases h
  | .ref l k (.bareFn _ _ _), t', p, h => by
    simp only [addToType, gen_bind_ok, gen_pure_ok, Prod.mk.injEq] at h
    obtain ⟨_, rfl, rfl, rfl⟩ := h
    exact ⟨0, .same _, by simp [implicits, hidden, isImplicit], by simp [implicits, hidden, isImplicit], rfl⟩
  | .ref l k (.implTrait _), t', p, h => by
    simp only [addToType, gen_bind_ok, gen_pure_ok, Prod.mk.injEq] at h
    obtain ⟨_, rfl, rfl, rfl⟩ := h
    exact ⟨0, .same _, by simp [implicits, hidden, isImplicit], by simp [implicits, hidden, isImplicit], rfl⟩
  | .ref l k (.path _ _), t', p, h => by
    simp only [addToType, gen_bind_ok, gen_pure_ok, Prod.mk.injEq] at h
    obtain ⟨_, rfl, rfl, rfl⟩ := h
    exact ⟨0, .same _, by simp [implicits, hidden, isImplicit], by simp [implicits, hidden, isImplicit], rfl⟩
  | .ref l k (.qpath _ _ _ _), t', p, h => by
    simp only [addToType, gen_bind_ok, gen_pure_ok, Prod.mk.injEq] at h
    obtain ⟨_, rfl, rfl, rfl⟩ := h
    exact ⟨0, .same _, by simp [implicits, hidden, isImplicit], by simp [implicits, hidden, isImplicit], rfl⟩
  | .ref l k (.ptr _ _), t', p, h => by
    simp only [addToType, gen_bind_ok, gen_pure_ok, Prod.mk.injEq] at h
    obtain ⟨_, rfl, rfl, rfl⟩ := h
    exact ⟨0, .same _, by simp [implicits, hidden, isImplicit], by simp [implicits, hidden, isImplicit], rfl⟩
  | .ref l k (.paren e), t', p, h => by
    by_cases he : ∃ b, e = .traitObject b
    · obtain ⟨b, rfl⟩ := he
      simp only [addToType, gen_bind_ok, gen_pure_ok, Prod.mk.injEq] at h
      obtain ⟨⟨b', p'⟩, hb, rfl, rfl⟩ := h
      have e : ∀ b, isImplicit (.paren (.traitObject b)) = isImplicit (.traitObject b) := fun _ => rfl
      rcases addToTraitObject_ok hb with ⟨h1, rfl, rfl⟩ | ⟨h1, rfl, rfl⟩
      · have hi : isImplicit (.traitObject b') = false := by
          rw [← Bool.not_eq_true, isImplicit_object]; simpa using h1
        exact ⟨0, .same _, by simp [implicits, hidden, e, hi], by simp [implicits, hidden, e, hi], rfl⟩
      · have hi : isImplicit (.traitObject b) = true := isImplicit_object.2 h1
        have hi' : isImplicit (.traitObject (b ++ [.lt (objectLt i)])) = false := by
          rw [← Bool.not_eq_true, isImplicit_object]; simp [Bounded]
        exact ⟨1, .object' _ _ _ h1, by simp [implicits, hidden, e, hi', implicitsBounds_lt],
          by simp [implicits, hidden, e, hi, Nat.add_comm], rfl⟩
    · rw [addToType] at h
      · simp only [addToType, gen_bind_ok] at h
        obtain ⟨_, h, _⟩ := h
        cases h
      · intro b hb; exact he ⟨b, by simpa using hb⟩
      · exact fun _ h => by cases h
  | .ref l k (.group _), t', p, h => by
    simp only [addToType, gen_bind_ok] at h
    obtain ⟨_, h, _⟩ := h
    cases h
  | .ref l k .infer, t', p, h => by
    simp only [addToType, gen_bind_ok] at h
    obtain ⟨_, h, _⟩ := h
    cases h
  | .ref l k (.mac _), t', p, h => by
    simp only [addToType, gen_bind_ok] at h
    obtain ⟨_, h, _⟩ := h
    cases h
  | .ref l k .never, t', p, h => by
    simp only [addToType, gen_bind_ok] at h
    obtain ⟨_, h, _⟩ := h
    cases h
  | .ref l k (.verbatim _), t', p, h => by
    simp only [addToType, gen_bind_ok] at h
    obtain ⟨_, h, _⟩ := h
    cases h
  | .group _, t', p, h => by
    rw [addToType] at h
    cases h
  | .infer, t', p, h => by
    rw [addToType] at h
    cases h
  | .mac _, t', p, h => by
    rw [addToType] at h
    cases h
  | .never, t', p, h => by
    rw [addToType] at h
    cases h
  | .paren _, t', p, h => by
    rw [addToType] at h
    cases h
  | .traitObject _, t', p, h => by
    rw [addToType] at h
    cases h
  | .verbatim _, t', p, h => by
    rw [addToType] at h
    cases h
theorem addToTypes_ok {m : Bool} {i : Ident} : ∀ {l l' : List Ty} {p : List GParam},
    addToTypes (.ident false m i false) l = .ok (l', p) →
    ∃ n, Explicit (objectLt i) (.tuple l) (.tuple l') ∧ implicitsTys l' = hiddens l ∧
      implicitsTys l = hiddens l + n ∧ p = List.replicate n (.lt { lt := objectLt i })
  | [], l', p, h => by
    simp only [addToTypes, gen_pure_ok, Prod.mk.injEq] at h
    obtain ⟨rfl, rfl⟩ := h
    exact ⟨0, .nil, rfl, rfl, rfl⟩
  | t :: l, l', p, h => by
    simp only [addToTypes, gen_bind_ok, gen_pure_ok, Prod.mk.injEq] at h
    obtain ⟨⟨t', p1⟩, ht, ⟨l'', p2⟩, hl, rfl, rfl⟩ := h
    obtain ⟨n1, h1, h2, h3, rfl⟩ := addToType_ok ht
    obtain ⟨n2, k1, k2, k3, rfl⟩ := addToTypes_ok hl
    exact ⟨n1 + n2, .cons h1 k1, by simp [implicitsTys, hiddens, h2, k2],
      by simp [implicitsTys, hiddens, h3, k3]; omega, by simp [List.replicate_append_replicate]⟩
end

/-! ## Signatures -/

theorem addToArgs_ok : ∀ {as as' : List FnArg} {p : List GParam}, (∀ a ∈ as, PlainArg a) →
    addToArgs as = .ok (as', p) →
    ∃ ls, Explicits as as' ls ∧ p = ls.map (fun l => .lt { lt := l }) ∧
      Pointwise (fun a a' => ∀ at_ q t', a' = .typed at_ q t' →
        ∃ t, a = .typed at_ q t ∧ implicits t' = hidden t) as as'
  | [], as', p, _, h => by
    simp only [addToArgs, gen_pure_ok, Prod.mk.injEq] at h
    obtain ⟨rfl, rfl⟩ := h
    exact ⟨[], .nil, rfl, .nil⟩
  | .receiver r m c t :: as, as', p, hp, h => by
    simp only [addToArgs, gen_bind_ok, gen_pure_ok, Prod.mk.injEq] at h
    obtain ⟨⟨as'', p'⟩, hs, rfl, rfl⟩ := h
    obtain ⟨ls, h1, h2, h3⟩ := addToArgs_ok (fun a ha => hp a (List.mem_cons_of_mem _ ha)) hs
    exact ⟨ls, .receiver r m c t h1, h2, .cons (fun _ _ _ e => by cases e) h3⟩
  | .typed a v t :: as, as', p, hp, h => by
    obtain ⟨m, i, rfl⟩ := hp _ List.mem_cons_self
    simp only [addToArgs, gen_bind_ok, gen_pure_ok, Prod.mk.injEq] at h
    obtain ⟨⟨t', p1⟩, ht, ⟨as'', p2⟩, hs, rfl, rfl⟩ := h
    obtain ⟨ls, h1, rfl, h3⟩ := addToArgs_ok (fun a ha => hp a (List.mem_cons_of_mem _ ha)) hs
    obtain ⟨n, k1, k2, k3, rfl⟩ := addToType_ok ht
    refine ⟨List.replicate n (objectLt i) ++ ls, .typed a m i t t' n k1 (by rw [k2, k3]) h1, by simp, .cons ?_ h3⟩
    intro _ _ _ e
    cases e
    exact ⟨t, rfl, k2⟩

theorem pointwise_mem {α β : Type} {R : α → β → Prop} {l : List α} {m : List β} (h : Pointwise R l m) :
    ∀ b ∈ m, ∃ a ∈ l, R a b := by
  induction h with
  | nil => exact fun _ h => nomatch h
  | cons h _ ih =>
    intro b hb
    rcases List.mem_cons.1 hb with rfl | hb
    · exact ⟨_, List.mem_cons_self, h⟩
    · obtain ⟨a, ha, k⟩ := ih b hb
      exact ⟨a, List.mem_cons_of_mem _ ha, k⟩

/-- C64: in the arguments of a method every reference to a trait object without a lifetime gets one of its
own, which is declared, provided there is none where the code does not look (`hidden`).  Nothing else about
the signature changes. -/
theorem C64_explicit_partial (s s' : Sig) (hplain : ∀ a ∈ s.inputs, PlainArg a)
    (hblind : ∀ a p t, .typed a p t ∈ s.inputs → hidden t = 0)
    (h : addLifetimeParameters s = .ok s') :
    (∀ a p t, .typed a p t ∈ s'.inputs → implicits t = 0) ∧
    (∃ ls, Explicits s.inputs s'.inputs ls ∧
      s'.generics.params = s.generics.params ++ ls.map fun l => .lt { lt := l }) ∧
    s'.generics.preds = s.generics.preds ∧ s'.ident = s.ident ∧ s'.output = s.output := by
  simp only [addLifetimeParameters, gen_bind_ok, gen_pure_ok] at h
  obtain ⟨⟨as, p⟩, ha, rfl⟩ := h
  obtain ⟨ls, h1, rfl, h3⟩ := addToArgs_ok hplain ha
  refine ⟨?_, ⟨ls, h1, rfl⟩, rfl, rfl, rfl⟩
  intro a q t' ht'
  obtain ⟨b, hb, k⟩ := pointwise_mem h3 _ ht'
  obtain ⟨t, rfl, e⟩ := k a q t' rfl
  rw [e, hblind a q t hb]

/-- C64: the angle brackets are there whenever there are parameters. -/
theorem C64_angle (s s' : Sig) (hangle : s.generics.params ≠ [] → s.generics.angle = true)
    (h : addLifetimeParameters s = .ok s') : s'.generics.params ≠ [] → s'.generics.angle = true := by
  simp only [addLifetimeParameters, gen_bind_ok, gen_pure_ok] at h
  obtain ⟨⟨as, p⟩, ha, rfl⟩ := h
  intro hne
  show (if p = [] then s.generics.angle else true) = true
  split
  · rename_i hp
    exact hangle fun k => hne (by show s.generics.params ++ p = []; rw [k, hp]; rfl)
  · rfl

theorem explicits_mem : ∀ {as as' : List FnArg} {ls : List Lt}, Explicits as as' ls →
    ∀ l ∈ ls, ∃ i ∈ as.filterMap argName, l = objectLt i
  | _, _, _, .nil => fun _ h => nomatch h
  | _, _, _, .receiver _ _ _ _ hs => fun l hl => by
    simpa [List.filterMap_cons, argName] using explicits_mem hs l hl
  | _, _, _, .typed a m i t t' n h hn hs => fun l hl => by
    rcases List.mem_append.1 hl with hl | hl
    · exact ⟨i, by simp [argName], (List.mem_replicate.1 hl).2⟩
    · obtain ⟨j, hj, k⟩ := explicits_mem hs l hl
      exact ⟨j, by simp only [List.filterMap_cons, argName]; exact List.mem_cons_of_mem _ hj, k⟩

/-- C64: the lifetimes are distinct if no argument has two such objects. -/
theorem C64_distinct {as as' : List FnArg} {ls : List Lt} (h : Explicits as as' ls)
    (hnames : (as.filterMap argName).Nodup)
    (hone : ∀ a p t, .typed a p t ∈ as → implicits t ≤ 1) : ls.Nodup := by
  induction h with
  | nil => exact List.nodup_nil
  | receiver r m c t hs ih =>
    exact ih (by simpa [List.filterMap_cons, argName] using hnames)
      (fun a p t ht => hone a p t (List.mem_cons_of_mem _ ht))
  | typed a m i t t' n h hn hs ih =>
    simp only [List.filterMap_cons, argName, List.nodup_cons] at hnames
    have ih := ih hnames.2 (fun a p t ht => hone a p t (List.mem_cons_of_mem _ ht))
    have h1 := hone _ _ _ List.mem_cons_self
    rw [List.nodup_append]
    refine ⟨?_, ih, ?_⟩
    · have : n = 0 ∨ n = 1 := by omega
      rcases this with rfl | rfl <;> simp
    · intro x hx y hy e
      subst e
      obtain ⟨j, hj, k⟩ := explicits_mem hs _ hy
      have e := (List.mem_replicate.1 hx).2
      rw [k] at e
      rw [string_append_right (show "__mockall_" ++ j = "__mockall_" ++ i from e)] at hj
      exact hnames.1 hj

mutual
theorem addToType_total {m : Bool} {i : Ident} : ∀ {t : Ty}, seesThrough t = true →
    ∃ x, addToType (.ident false m i false) t = .ok x
  | .array e l, h => by
    rw [seesThrough] at h
    obtain ⟨x, hx⟩ := addToType_total (t := e) h
    exact ⟨_, by rw [addToType, hx]; rfl⟩
  | .slice e, h => by
    rw [seesThrough] at h
    obtain ⟨x, hx⟩ := addToType_total (t := e) h
    exact ⟨_, by rw [addToType, hx]; rfl⟩
  | .tuple l, h => by
    rw [seesThrough] at h
    obtain ⟨x, hx⟩ := addToTypes_total (l := l) h
    exact ⟨_, by rw [addToType, hx]; rfl⟩
  | .bareFn _ _ _, _ => ⟨_, by rw [addToType]; rfl⟩
  | .implTrait _, _ => ⟨_, by rw [addToType]; rfl⟩
  | .path _ _, _ => ⟨_, by rw [addToType]; rfl⟩
  | .qpath _ _ _ _, _ => ⟨_, by rw [addToType]; rfl⟩
  | .ptr _ _, _ => ⟨_, by rw [addToType]; rfl⟩
  | .ref l k e, h => by
    have ho : ∀ b, ∃ x, addToTraitObject (.ident false m i false) b = .ok x := fun b => by
      rw [addToTraitObject]
      split
      · exact ⟨_, rfl⟩
      · exact ⟨_, rfl⟩
    by_cases h1 : ∃ b, e = .traitObject b
    · obtain ⟨b, rfl⟩ := h1
      obtain ⟨x, hx⟩ := ho b
      exact ⟨_, by rw [addToType, hx]; rfl⟩
    · by_cases h2 : ∃ b, e = .paren (.traitObject b)
      · obtain ⟨b, rfl⟩ := h2
        obtain ⟨x, hx⟩ := ho b
        exact ⟨_, by rw [addToType, hx]; rfl⟩
      · rw [seesThrough] at h
        · obtain ⟨x, hx⟩ := addToType_total (t := e) h
          refine ⟨_, by
            rw [addToType, hx]
            · rfl
            · exact fun b hb => h2 ⟨b, hb⟩
            · exact fun b hb => h1 ⟨b, hb⟩⟩
        · exact fun b hb => h1 ⟨b, hb⟩
        · exact fun b hb => h2 ⟨b, hb⟩
  | .group _, h => by rw [seesThrough] at h <;> first | cases h | nofun
  | .infer, h => by rw [seesThrough] at h <;> first | cases h | nofun
  | .mac _, h => by rw [seesThrough] at h <;> first | cases h | nofun
  | .never, h => by rw [seesThrough] at h <;> first | cases h | nofun
  | .paren _, h => by rw [seesThrough] at h <;> first | cases h | nofun
  | .traitObject _, h => by rw [seesThrough] at h <;> first | cases h | nofun
  | .verbatim _, h => by rw [seesThrough] at h <;> first | cases h | nofun
theorem addToTypes_total {m : Bool} {i : Ident} : ∀ {l : List Ty}, seesThroughs l = true →
    ∃ x, addToTypes (.ident false m i false) l = .ok x
  | [], _ => ⟨_, by rw [addToTypes]; rfl⟩
  | t :: l, h => by
    rw [seesThroughs, Bool.and_eq_true] at h
    obtain ⟨x, hx⟩ := addToType_total (t := t) h.1
    obtain ⟨y, hy⟩ := addToTypes_total (m := m) (i := i) (l := l) h.2
    exact ⟨_, by rw [addToTypes, hx]; simp only [bind, Except.bind, hy]; rfl⟩
end

/-- C64: arguments with names and types made of references, arrays, slices, tuples, paths, pointers, `fn(..)`
and trait objects behind references are accepted. -/
theorem C64_total (s : Sig) (hplain : ∀ a ∈ s.inputs, PlainArg a)
    (h : ∀ a p t, .typed a p t ∈ s.inputs → seesThrough t = true) : ∃ s', addLifetimeParameters s = .ok s' := by
  have key : ∀ as : List FnArg, (∀ a ∈ as, PlainArg a) →
      (∀ a p t, .typed a p t ∈ as → seesThrough t = true) → ∃ x, addToArgs as = .ok x := by
    intro as
    induction as with
    | nil => exact fun _ _ => ⟨_, rfl⟩
    | cons a as ih =>
      intro hp h
      obtain ⟨x, hx⟩ := ih (fun a ha => hp a (List.mem_cons_of_mem _ ha))
        (fun a p t ht => h a p t (List.mem_cons_of_mem _ ht))
      cases a with
      | receiver r m c t => exact ⟨_, by rw [addToArgs, hx]; rfl⟩
      | typed at_ p t =>
        obtain ⟨m, i, rfl⟩ := hp _ List.mem_cons_self
        obtain ⟨y, hy⟩ := addToType_total (m := m) (i := i) (h _ _ _ List.mem_cons_self)
        exact ⟨_, by rw [addToArgs, hy]; simp only [bind, Except.bind, hx]; rfl⟩
  obtain ⟨x, hx⟩ := key s.inputs hplain h
  exact ⟨_, by rw [addLifetimeParameters, hx]; rfl⟩

/-! ## Where it fails -/

/-- `dyn T`. -/
def dynT : Ty := .traitObject [.trait false [] false [.of "T"]]

/-- A method with one argument. -/
def oneArg (t : Ty) : Sig where
  ident := "foo"
  inputs := [.receiver (some none) false false (.ref none false (.name "Self")),
    .typed [] (.ident false false "x" false) t]

/-- C64 is false in the blind spots: `Option<&dyn T>` is left alone. -/
theorem C64_hidden : ∃ s' t, addLifetimeParameters
      (oneArg (.path false [.mk "Option" (.angle [.ty (.ref none false dynT)])])) = .ok s' ∧
    .typed [] (.ident false false "x" false) t ∈ s'.inputs ∧ implicits t = 1 ∧ s'.generics.params = [] :=
  ⟨_, _, rfl, List.mem_cons_of_mem _ List.mem_cons_self, rfl, rfl⟩

/-- C64: `(&dyn T, &dyn T)` declares the same lifetime twice, which `rustc` rejects. -/
theorem C64_declared_twice : ∃ s', addLifetimeParameters
      (oneArg (.tuple [.ref none false dynT, .ref none false dynT])) = .ok s' ∧
    s'.generics.params = [.lt ⟨"__mockall_x", []⟩, .lt ⟨"__mockall_x", []⟩] := ⟨_, rfl, rfl⟩

/-- C64: a type in parentheses or from a `macro_rules` fragment is rejected, although it means the same. -/
theorem C64_rejected (e : Ty) : addLifetimeParameters (oneArg (.paren e)) = .error "unsupported type in this position" ∧
    addLifetimeParameters (oneArg (.group e)) = .error "unsupported type in this position" ∧
    addLifetimeParameters (oneArg (.ref none false (.group e))) = .error "unsupported type in this position" :=
  ⟨rfl, rfl, rfl⟩

/-- `fn foo<'a, U>(&self, x: [&'a mut dyn T; 4], y: (u32, &(dyn T + 'a)), z: &&dyn T)`. -/
def exObjects : Sig where
  ident := "foo"
  generics := { angle := true, params := [.lt ⟨"a", []⟩, .ty { id := "U" }] }
  inputs := [.receiver (some none) false false (.ref none false (.name "Self")),
    .typed [] (.ident false false "x" false) (.array (.ref (some "a") true dynT) (.other "4")),
    .typed [] (.ident false false "y" false) (.tuple [.name "u32", .ref none false
      (.paren (.traitObject [.trait false [] false [.of "T"], .lt "a"]))]),
    .typed [] (.ident false false "z" false) (.ref none false (.ref none false dynT))]

example : ∃ s', addLifetimeParameters exObjects = .ok s' ∧ (∀ a ∈ exObjects.inputs, PlainArg a) ∧
    (∀ a p t, .typed a p t ∈ exObjects.inputs → hidden t = 0 ∧ seesThrough t = true ∧ implicits t ≤ 1) ∧
    (exObjects.inputs.filterMap argName).Nodup ∧
    s'.generics.params = [.lt ⟨"a", []⟩, .ty { id := "U" }, .lt ⟨"__mockall_x", []⟩, .lt ⟨"__mockall_z", []⟩] ∧
    s'.inputs.map (fun | .typed _ _ t => implicits t | _ => 7) = [7, 0, 0, 0] := by
  refine ⟨_, rfl, ?_, ?_, by decide, rfl, rfl⟩
  · simp [exObjects, PlainArg]
  · intro a p t h
    simp only [exObjects, List.mem_cons, reduceCtorEq, FnArg.typed.injEq, List.not_mem_nil, or_false, false_or] at h
    rcases h with ⟨-, -, rfl⟩ | ⟨-, -, rfl⟩ | ⟨-, -, rfl⟩ <;> exact ⟨rfl, rfl, by decide⟩

end Mockall.Props
