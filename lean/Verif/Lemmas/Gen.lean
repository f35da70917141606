import Verif.Derive.Syntax

/-! Lemmas about code generation that may fail. -/

namespace Mockall.Derive

@[simp] theorem gen_bind_ok {α β : Type} {x : Gen α} {f : α → Gen β} {b : β} :
    (x >>= f) = .ok b ↔ ∃ a, x = .ok a ∧ f a = .ok b := by
  cases x <;> simp [bind, Except.bind]

@[simp] theorem gen_pure_ok {α : Type} {a b : α} : (pure a : Gen α) = .ok b ↔ a = b := by
  simp [pure, Except.pure]

@[simp] theorem gen_throw_ok {α : Type} {s : String} {b : α} : (throw s : Gen α) = .ok b ↔ False := by
  simp [throw, throwThe, MonadExceptOf.throw]

/-- Does generation succeed? -/
def Gen.succeeds {α : Type} (x : Gen α) : Prop := ∃ a, x = .ok a

@[simp] theorem succeeds_bind {α β : Type} {x : Gen α} {f : α → Gen β} :
    Gen.succeeds (x >>= f) ↔ ∃ a, x = .ok a ∧ Gen.succeeds (f a) := by
  simp only [Gen.succeeds, gen_bind_ok]
  constructor
  · rintro ⟨b, a, h, k⟩; exact ⟨a, h, b, k⟩
  · rintro ⟨a, h, b, k⟩; exact ⟨b, a, h, k⟩

@[simp] theorem succeeds_pure {α : Type} {a : α} : Gen.succeeds (pure a : Gen α) := ⟨a, rfl⟩

@[simp] theorem succeeds_ok {α : Type} {a : α} : Gen.succeeds (.ok a : Gen α) := ⟨a, rfl⟩

@[simp] theorem succeeds_throw {α : Type} {s : String} : ¬ Gen.succeeds (throw s : Gen α) := by
  rintro ⟨a, h⟩; simp at h

theorem succeeds_seq {α β : Type} {x : Gen α} {f : α → Gen β} (h : Gen.succeeds x)
    (k : ∀ a, Gen.succeeds (f a)) : Gen.succeeds (x >>= f) := by
  obtain ⟨a, ha⟩ := h
  exact succeeds_bind.2 ⟨a, ha, k a⟩

theorem mapM_ok_map {α β : Type} {f : α → Gen β} {g : α → β} : ∀ {l : List α} {l' : List β},
    (∀ a ∈ l, ∀ b, f a = .ok b → b = g a) → l.mapM f = .ok l' → l' = l.map g
  | [], _, _, h => by simp only [List.mapM_nil, gen_pure_ok] at h; subst h; rfl
  | a :: l, l', hg, h => by
    simp only [List.mapM_cons, gen_bind_ok, gen_pure_ok] at h
    obtain ⟨b, hb, l'', hl, rfl⟩ := h
    rw [List.map_cons, hg a (by simp) b hb, mapM_ok_map (fun a h => hg a (by simp [h])) hl]

theorem mapM_ok_rel {α β γ : Type} {f : α → Gen β} {g : β → γ} {k : α → γ} :
    ∀ {l : List α} {m : List β}, (∀ a ∈ l, ∀ b, f a = .ok b → g b = k a) → l.mapM f = .ok m →
      m.map g = l.map k
  | [], m, _, h => by
    simp only [List.mapM_nil, gen_pure_ok] at h
    subst h; rfl
  | a :: l, m, hf, h => by
    simp only [List.mapM_cons, gen_bind_ok, gen_pure_ok] at h
    obtain ⟨b, hb, m', hm, rfl⟩ := h
    rw [List.map_cons, List.map_cons, hf a List.mem_cons_self b hb,
      mapM_ok_rel (fun a ha => hf a (List.mem_cons_of_mem _ ha)) hm]

theorem mapM_succeeds {α β : Type} {f : α → Gen β} : ∀ {l : List α},
    Gen.succeeds (l.mapM f) ↔ ∀ a ∈ l, Gen.succeeds (f a)
  | [] => by simp
  | a :: l => by
    simp only [List.mapM_cons, succeeds_bind, succeeds_pure, and_true, List.mem_cons, forall_eq_or_imp]
    rw [← mapM_succeeds]
    constructor
    · rintro ⟨b, hb, l', hl⟩; exact ⟨⟨b, hb⟩, ⟨l', hl⟩⟩
    · rintro ⟨⟨b, hb⟩, ⟨l', hl⟩⟩; exact ⟨b, hb, l', hl⟩

/-- To compute examples. -/
instance {α : Type} [DecidableEq α] : DecidableEq (Gen α)
  | .ok a, .ok b => decidable_of_iff (a = b) (by simp)
  | .error a, .error b => decidable_of_iff (a = b) (by simp)
  | .ok _, .error _ => isFalse (by simp)
  | .error _, .ok _ => isFalse (by simp)

end Mockall.Derive
