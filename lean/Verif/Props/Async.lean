import Verif.Spec.Async
import Verif.Props.Sequence

/-! # Asynchronous methods act when they are polled (C77) -/

namespace Mockall.Props

open Spec

variable {V : Type}

/-- The futures after `before`. -/
structure Futs (before : List (AOp V)) (a : ASys V) : Prop where
  len : a.futs.length = (made before).length
  /-- a future that still exists has what was passed, and has not run if it was not used -/
  live : ∀ (n : Nat) (f : Fut V), a.futs[n]? = some (some f) →
    (made before)[n]? = some (f.callee, f.args) ∧ (f.fresh = true ↔ ¬ Used n before)
  /-- one that does not was used -/
  gone : ∀ n : Nat, a.futs[n]? = some none → Used n before

theorem made_append (l m : List (AOp V)) : made (l ++ m) = made l ++ made m := List.filterMap_append

theorem used_append {n : Nat} {l : List (AOp V)} {op : AOp V} : Used n (l ++ [op]) ↔
    Used n l ∨ (n < (made l).length ∧ ((∃ tid upd, op = .poll n tid upd) ∨ op = .discard n)) := by
  constructor
  · rintro ⟨b, o, c, h, hn, ho⟩
    rcases List.eq_nil_or_concat c with rfl | ⟨c, x, rfl⟩
    · have := List.append_inj' h rfl
      obtain ⟨rfl, h2⟩ := this
      cases h2
      exact .inr ⟨hn, ho⟩
    · left
      rw [List.concat_eq_append, ← List.cons_append, ← List.append_assoc] at h
      have := List.append_inj' h rfl
      exact ⟨b, o, c, this.1, hn, ho⟩
  · rintro (⟨b, o, c, rfl, hn, ho⟩ | ⟨hn, ho⟩)
    · exact ⟨b, o, c ++ [op], by simp, hn, ho⟩
    · exact ⟨l, op, [], rfl, hn, ho⟩

theorem used_lt {n : Nat} {l : List (AOp V)} (h : Used n l) : n < (made l).length := by
  obtain ⟨b, o, c, rfl, hn, -⟩ := h
  rw [made_append]
  simp only [List.length_append]
  omega

theorem used_plain {n : Nat} {l : List (AOp V)} {op : Op V} : Used n (l ++ [.plain op]) ↔ Used n l := by
  rw [used_append]; simp

theorem used_start {n : Nat} {l : List (AOp V)} {c : Callee} {args : List V} :
    Used n (l ++ [.start c args]) ↔ Used n l := by
  rw [used_append]; simp

theorem used_poll {n m tid : Nat} {upd : V → V} {l : List (AOp V)} :
    Used n (l ++ [.poll m tid upd]) ↔ Used n l ∨ (n < (made l).length ∧ m = n) := by
  rw [used_append]; simp

theorem used_discard {n m : Nat} {l : List (AOp V)} :
    Used n (l ++ [.discard m]) ↔ Used n l ∨ (n < (made l).length ∧ m = n) := by
  rw [used_append]; simp

theorem Futs.lt {before : List (AOp V)} {a : ASys V} (h : Futs before a) {n : Nat} {x : Option (Fut V)}
    (hx : a.futs[n]? = some x) : n < (made before).length := by
  rw [← h.len]; exact (List.getElem?_eq_some_iff.1 hx).1

/-- One operation. -/
theorem async_step (env : Env V) {before : List (AOp V)} {a : ASys V} (h : Futs before a) (op : AOp V) :
    Futs (before ++ [op]) (a.step env op).2 ∧
    match effect before op with
    | some o => (a.step env op).1 = .obs (a.sys.step env o).1 ∧ (a.step env op).2.sys = (a.sys.step env o).2
    | none => seen [(a.step env op).1] = [] ∧ (a.step env op).2.sys = a.sys := by
  cases op with
  | plain o =>
    refine ⟨⟨?_, ?_, ?_⟩, rfl, rfl⟩
    · simpa [made_append, made, ASys.step] using h.len
    · intro n f hf
      rw [used_plain, made_append]
      simpa [made] using h.live n f hf
    · intro n hn
      rw [used_plain]
      exact h.gone n hn
  | start c args =>
    refine ⟨⟨?_, ?_, ?_⟩, rfl, rfl⟩
    · simp [made_append, made, ASys.step, h.len]
    · intro n f hf
      rw [used_start, made_append]
      simp only [ASys.step] at hf
      rcases Nat.lt_or_ge n a.futs.length with hl | hl
      · rw [List.getElem?_append_left hl] at hf
        rw [List.getElem?_append_left (h.len ▸ hl)]
        exact h.live n f hf
      · rw [List.getElem?_append_right hl] at hf
        rw [List.getElem?_append_right (h.len ▸ hl), ← h.len]
        have h0 : n - a.futs.length = 0 := by
          have := (List.getElem?_eq_some_iff.1 hf).1
          simp only [List.length_singleton] at this
          omega
        rw [h0] at hf ⊢
        simp only [List.getElem?_cons_zero, Option.some.injEq] at hf
        subst hf
        refine ⟨rfl, ?_⟩
        simp only [true_iff]
        intro hu
        have := used_lt hu
        rw [← h.len] at this
        omega
    · intro n hn
      rw [used_start]
      simp only [ASys.step] at hn
      rcases Nat.lt_or_ge n a.futs.length with hl | hl
      · rw [List.getElem?_append_left hl] at hn
        exact h.gone n hn
      · rw [List.getElem?_append_right hl] at hn
        have h0 : n - a.futs.length = 0 := by
          have := (List.getElem?_eq_some_iff.1 hn).1
          simp only [List.length_singleton] at this
          omega
        rw [h0] at hn
        simp at hn
  | poll m tid upd =>
    have hmade : made (before ++ [.poll m tid upd]) = made before := by rw [made_append]; simp [made]
    simp only [ASys.step]
    split
    · rename_i f hf
      obtain ⟨h1, h2⟩ := h.live m f hf
      have hlt := h.lt hf
      split
      · rename_i hfr
        have hu := h2.1 hfr
        have he : effect before (.poll m tid upd) = some (f.callee.op tid f.args upd) := by
          simp only [effect, h1, if_neg hu]
        rw [he]
        refine ⟨⟨?_, ?_, ?_⟩, rfl, rfl⟩
        · simp [hmade, h.len]
        · intro n g hg
          rw [hmade, used_poll]
          simp only [List.getElem?_set] at hg
          split at hg
          · rename_i e
            subst e
            rw [if_pos (h.len ▸ hlt)] at hg
            simp only [Option.some.injEq] at hg
            subst hg
            exact ⟨h1, by simp [hlt]⟩
          · rename_i e
            obtain ⟨k1, k2⟩ := h.live n g hg
            exact ⟨k1, by rw [k2]; simp [e]⟩
        · intro n hn
          rw [used_poll]
          simp only [List.getElem?_set] at hn
          split at hn
          · rename_i e
            subst e
            rw [if_pos (h.len ▸ hlt)] at hn
            simp at hn
          · exact .inl (h.gone n hn)
      · rename_i hfr
        have hu : Used m before := Classical.byContradiction fun hc => hfr (h2.2 hc)
        have he : effect before (.poll m tid upd) = none := by
          simp only [effect, h1, if_pos hu]
        rw [he]
        refine ⟨⟨?_, ?_, ?_⟩, rfl, rfl⟩
        · rw [hmade]; exact h.len
        · intro n g hg
          obtain ⟨k1, k2⟩ := h.live n g hg
          rw [hmade, used_poll]
          refine ⟨k1, k2.trans (not_congr ⟨.inl, ?_⟩)⟩
          rintro (hc | ⟨-, rfl⟩)
          · exact hc
          · exact hu
        · intro n hn
          rw [used_poll]
          exact .inl (h.gone n hn)
    · rename_i hf
      have he : effect before (.poll m tid upd) = none := by
        simp only [effect]
        split
        · rename_i c args hm
          have hl := (List.getElem?_eq_some_iff.1 hm).1
          have hl' : m < a.futs.length := h.len ▸ hl
          cases hx : a.futs[m] with
          | none =>
            have := h.gone m (by rw [List.getElem?_eq_getElem hl', hx])
            rw [if_pos this]
          | some f => exact absurd (by rw [List.getElem?_eq_getElem hl', hx]) (hf f)
        · rfl
      rw [he]
      refine ⟨⟨?_, ?_, ?_⟩, rfl, rfl⟩
      · rw [hmade]; exact h.len
      · intro n g hg
        obtain ⟨k1, k2⟩ := h.live n g hg
        rw [hmade, used_poll]
        refine ⟨k1, k2.trans (not_congr ⟨.inl, ?_⟩)⟩
        rintro (hc | ⟨-, rfl⟩)
        · exact hc
        · exact absurd hg (hf g)
      · intro n hn
        rw [used_poll]
        exact .inl (h.gone n hn)
  | discard m =>
    have hmade : made (before ++ [.discard m]) = made before := by rw [made_append]; simp [made]
    simp only [ASys.step, effect]
    split
    · rename_i f hf
      have hlt := h.lt hf
      refine ⟨⟨?_, ?_, ?_⟩, rfl, rfl⟩
      · simp [hmade, h.len]
      · intro n g hg
        rw [hmade, used_discard]
        simp only [List.getElem?_set] at hg
        split at hg
        · rename_i e
          subst e
          rw [if_pos (h.len ▸ hlt)] at hg
          simp at hg
        · rename_i e
          obtain ⟨k1, k2⟩ := h.live n g hg
          exact ⟨k1, by rw [k2]; simp [e]⟩
      · intro n hn
        rw [used_discard]
        simp only [List.getElem?_set] at hn
        split at hn
        · rename_i e
          exact .inr ⟨e ▸ hlt, e⟩
        · exact .inl (h.gone n hn)
    · rename_i hf
      refine ⟨⟨?_, ?_, ?_⟩, rfl, rfl⟩
      · rw [hmade]; exact h.len
      · intro n g hg
        obtain ⟨k1, k2⟩ := h.live n g hg
        rw [hmade, used_discard]
        refine ⟨k1, k2.trans (not_congr ⟨.inl, ?_⟩)⟩
        rintro (hc | ⟨-, rfl⟩)
        · exact hc
        · exact absurd hg (hf g)
      · intro n hn
        rw [used_discard]
        exact .inl (h.gone n hn)

theorem async_run (env : Env V) : ∀ (l before : List (AOp V)) (a : ASys V), Futs before a →
    seen (ASys.run env l a).1 = (Sys.run env (effectsFrom before l) a.sys).1 ∧
    (ASys.run env l a).2.sys = (Sys.run env (effectsFrom before l) a.sys).2
  | [], _, _, _ => ⟨rfl, rfl⟩
  | op :: l, before, a, h => by
    obtain ⟨h1, h2⟩ := async_step env h op
    obtain ⟨h3, h4⟩ := async_run env l _ _ h1
    simp only [ASys.run, effectsFrom]
    cases he : effect before op with
    | none =>
      rw [he] at h2
      simp only [Option.toList_none, List.nil_append]
      rw [h2.2] at h3 h4
      refine ⟨?_, h4⟩
      rw [← h3]
      have := h2.1
      generalize (a.step env op).1 = x at this ⊢
      cases x <;> simp_all [seen]
    | some o =>
      rw [he] at h2
      simp only [Option.toList_some, List.cons_append, List.nil_append, Sys.run]
      rw [h2.2] at h3 h4
      refine ⟨?_, h4⟩
      rw [← h3, h2.1]
      rfl

/-- **C77**.  A program with futures has the same effect on mocks, and lets the user see the same results and
panics, as the program without futures in which every call of an `async fn` takes place where its future is
polled first, by the thread that polls it, and is absent if it is never polled. -/
theorem C77_polled (env : Env V) (sts : List (MethodInfo V)) (l : List (AOp V)) :
    seen (ASys.run env l (ASys.init sts)).1 = (Sys.run env (effects l) (Sys.init sts)).1 ∧
    (ASys.run env l (ASys.init sts)).2.sys = (Sys.run env (effects l) (Sys.init sts)).2 :=
  async_run env l [] (ASys.init sts) ⟨rfl, by intro n f h; simp [ASys.init] at h,
    by intro n h; simp [ASys.init] at h⟩

/-- The operations other than those on futures. -/
def plains (l : List (AOp V)) : List (Op V) := l.filterMap fun | .plain op => some op | _ => none

theorem effectsFrom_plains : ∀ (l before : List (AOp V)), (∀ n tid upd, .poll n tid upd ∉ l) →
    effectsFrom before l = plains l
  | [], _, _ => rfl
  | op :: l, before, h => by
    have ih := effectsFrom_plains l (before ++ [op]) fun n tid upd hm => h n tid upd (List.mem_cons_of_mem _ hm)
    simp only [effectsFrom, ih]
    cases op with
    | plain o => rfl
    | start c args => rfl
    | poll n tid upd => exact absurd List.mem_cons_self (h n tid upd)
    | discard n => rfl

/-- **C77**.  Calling an `async fn` and dropping the future without polling it leaves no trace: no expectation
is matched, counted or used up. -/
theorem C77_unpolled (env : Env V) (sts : List (MethodInfo V)) (l : List (AOp V))
    (h : ∀ n tid upd, .poll n tid upd ∉ l) :
    seen (ASys.run env l (ASys.init sts)).1 = (Sys.run env (plains l) (Sys.init sts)).1 ∧
    (ASys.run env l (ASys.init sts)).2.sys = (Sys.run env (plains l) (Sys.init sts)).2 := by
  rw [← effectsFrom_plains l [] h]
  exact C77_polled env sts l

/-- **C77**.  The first poll of a future is always the last one that does anything: it is never pending, and a
second one panics, or is not possible, and does not reach the mock. -/
theorem C77_ready (env : Env V) (a : ASys V) (n tid tid' : Nat) (upd upd' : V → V) (o : Obs V)
    (h : (a.step env (.poll n tid upd)).1 = .obs o) :
    ((a.step env (.poll n tid upd)).2.step env (.poll n tid' upd')) =
      (.resumed, (a.step env (.poll n tid upd)).2) := by
  simp only [ASys.step] at h ⊢
  split at h
  · rename_i f hf
    split at h
    · rename_i hfr
      have hl := (List.getElem?_eq_some_iff.1 hf).1
      rw [if_pos hfr]
      simp only [List.getElem?_set, if_true, if_pos hl, Bool.false_eq_true, if_false]
    · cases h
  · cases h

/-! ## Examples -/

/-- Two `async` methods with one expectation each, in a sequence. -/
def asyncProg (l : List (AOp Nat)) : List (AOp Nat) :=
  .plain (.new [⟨false, ⟨.static, "M::f", "M::f", none⟩, fun _ => some 40⟩,
    ⟨false, ⟨.static, "M::g", "M::g", none⟩, fun _ => some 40⟩]) ::
  .plain (.expect 0 0 0 [.once, .inSequence 3, .returnConst 5]) ::
  .plain (.expect 0 1 0 [.once, .inSequence 3, .returnConst 6]) :: l

/-- What is seen after the first three operations. -/
def asyncSeen (l : List (AOp Nat)) : List (AObs Nat) :=
  (ASys.run (envOf false) (asyncProg l) (ASys.init [])).1.drop 3

/-- The order of the calls is the order in which futures are polled, not that in which they are made. -/
example : asyncSeen [.start (.inst 0 1 0) [], .start (.inst 0 0 0) [], .poll 1 0 id, .poll 0 0 id,
      .plain (.drop 0 false)] =
    [.silent, .silent, .obs (.value (.ok 5)), .obs (.value (.ok 6)), .obs (.unit (.ok ()) false)] := by rfl

example : asyncSeen [.start (.inst 0 0 0) [], .start (.inst 0 1 0) [], .poll 1 0 id] =
    [.silent, .silent, .obs (.value (.error (.seqViolation "M::g()")))] := by rfl

/-- A future that is dropped is no call, so the expectations are not satisfied. -/
example : ∃ p, asyncSeen [.start (.inst 0 0 0) [], .discard 0, .start (.inst 0 0 0) [], .poll 1 0 id, .poll 1 0 id,
      .poll 0 0 id, .plain (.drop 0 false)] =
    [.silent, .silent, .silent, .obs (.value (.ok 5)), .resumed, .invalid, .obs (.unit (.error p) false)] := ⟨_, rfl⟩

end Mockall.Props
