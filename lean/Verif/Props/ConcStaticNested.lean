import Verif.Lemmas.ConcStaticNested
import Verif.Spec.StaticNested

/-! # Static methods used by user code (C78) -/

namespace Mockall

open Spec

variable {V : Type}

theorem Spec.Reached.inv {env : Env V} {s : TState V} (h : Reached env s) : TInv s := by
  obtain ⟨fns, w, sch, rfl⟩ := h
  exact TInv.run sch (TInv.rest fns w)

theorem outside_iff {x : TAct V} : Outside x ↔ x.act.pc.early = true := by
  unfold Outside
  cases x.act.pc <;> simp [SPc.early]

/-- What a step leaves alone. -/
theorem TInv.frame {env : Env V} {s s' : TState V} (h : TInv s) {id : Nat} {x : TAct V} {ans : Answer V}
    (hx : s.acts[id]? = some x) (hs : s.stepAct env id x ans = some s') :
    (∀ (j : Nat) (y : TAct V), j ≠ id → s.acts[j]? = some y → s'.acts[j]? = some y) ∧
    (∀ g j, j ≠ id → s.held g = some j → s'.held g = some j) ∧
    ∃ pc, s'.acts = s.acts.set id { x with act := { x.act with pc := pc } } ∧
      (x.act.pc.early = true → s.held x.fn ≠ none → x.act.pc = .clear ∧ pc = .tryWait) := by
  obtain ⟨pc, hacts, hother, hst, hins, hout, hearly⟩ := TState.stepAct_shape hx hs
  refine ⟨?_, ?_, pc, hacts, hearly⟩
  · intro j y hj hy
    rw [hacts, List.getElem?_set_ne (fun e => hj e.symm)]
    exact hy
  · intro g j hj hg
    by_cases e : g = x.fn
    · subst e
      cases hi : x.act.pc.inside with
      | true =>
        have := h.holds id x hx hi
        rw [hg] at this
        exact absurd (Option.some.inj this) hj
      | false =>
        obtain ⟨h1, h2⟩ := hout hi
        rw [h1]
        split
        · rename_i hp
          rw [h2 hp] at hg
          cases hg
        · exact hg
    · rw [(hother g e).2]; exact hg

/-- **C78**.  Two operations on the same static method are never both past the lock and not past the unlock,
whatever predicates and closures do. -/
theorem C78_exclusive (env : Env V) (s : TState V) (h : Reached env s) (i j : Nat) (x y : TAct V)
    (hx : s.acts[i]? = some x) (hy : s.acts[j]? = some y) (hf : x.fn = y.fn)
    (ix : x.act.pc.inside = true) (iy : y.act.pc.inside = true) : i = j := by
  have h1 := h.inv.holds i x hx ix
  have h2 := h.inv.holds j y hy iy
  rw [hf, h2] at h1
  exact (Option.some.inj h1).symm

/-! ## Deadlock -/

theorem waits_pending {s : TState V} {i j : Nat} (h : Waits s i j) : Pending s i := by
  cases h with
  | lock x hx out held => exact ⟨x, hx, SPc.early_unfinished (outside_iff.1 out)⟩
  | inner x y hx hy lt thread fx fy => exact ⟨x, hx, fx⟩

theorem dead_start {env : Env V} {s : TState V} {D : Nat → Prop} (hd : ∀ i, D i → ∃ j, D j ∧ Waits s i j)
    (tid f : Nat) (op : SOp V) : ∀ i, D i → ∃ j, D j ∧ Waits (s.step env (.start tid f op)) i j := by
  intro i hi
  obtain ⟨j, hj, hw⟩ := hd i hi
  refine ⟨j, hj, ?_⟩
  simp only [TState.step]
  split
  · have hk : ∀ (n : Nat) (x : TAct V), s.acts[n]? = some x →
        (s.acts ++ [⟨f, ⟨tid, op, op.start⟩⟩])[n]? = some x := by
      intro n x hn
      rw [List.getElem?_append_left (List.getElem?_eq_some_iff.1 hn).1]
      exact hn
    cases hw with
    | lock x hx out held => exact .lock x (hk _ _ hx) out held
    | inner x y hx hy lt thread fx fy => exact .inner x y (hk _ _ hx) (hk _ _ hy) lt thread fx fy
  · exact hw

theorem dead_step {env : Env V} {s : TState V} (h : TInv s) {D : Nat → Prop}
    (hd : ∀ i, D i → ∃ j, D j ∧ Waits s i j) (id : Nat) (ans : Answer V) :
    ∀ i, D i → ∃ j, D j ∧ Waits (s.step env (.step id ans)) i j := by
  simp only [TState.step]
  split
  · exact hd
  rename_i x hx
  split
  case isFalse => exact hd
  rename_i hin
  rw [TState.innermost_iff] at hin
  cases hs : s.stepAct env id x ans with
  | none => exact hd
  | some s' =>
    simp only [Option.getD_some]
    obtain ⟨hkeep, hheld, pc, hacts, hearly⟩ := h.frame hx hs
    have hlen := (List.getElem?_eq_some_iff.1 hx).1
    -- a member that makes a step only clears the poison flag
    have hmem : D id → x.act.pc = .clear ∧ pc = .tryWait ∧ ∃ j, D j ∧ s.held x.fn = some j := by
      intro hD
      obtain ⟨j, hj, hw⟩ := hd id hD
      cases hw with
      | lock x' hx' out held =>
        rw [hx] at hx'
        cases hx'
        obtain ⟨h1, h2⟩ := hearly (outside_iff.1 out) (by rw [held]; simp)
        exact ⟨h1, h2, j, hj, held⟩
      | inner x' y hx' hy lt thread fx fy =>
        rw [hx] at hx'
        cases hx'
        exact absurd thread.symm (hin j y lt hy fy)
    have hself : D id → s'.acts[id]? = some { x with act := { x.act with pc := .tryWait } } := by
      intro hD
      rw [hacts, List.getElem?_set_self hlen, (hmem hD).2.1]
    intro i hi
    obtain ⟨j, hj, hw⟩ := hd i hi
    refine ⟨j, hj, ?_⟩
    cases hw with
    | lock y hy out held =>
      have hji : j ≠ id := by
        rintro rfl
        obtain ⟨z, hz, -, hz'⟩ := h.held _ _ held
        rw [hx] at hz
        cases hz
        rw [(hmem hj).1] at hz'
        simp [SPc.inside, SPc.working] at hz'
      have hh := hheld _ _ hji held
      by_cases e : i = id
      · subst e
        rw [hx] at hy
        cases hy
        exact .lock _ (hself hi) (.inr (.inr rfl)) hh
      · exact .lock y (hkeep i y e hy) out hh
    | inner y z hy hz lt thread fy fz =>
      have hi' : i ≠ id := by
        rintro rfl
        rw [hx] at hy
        cases hy
        exact absurd thread.symm (hin j z lt hz fz)
      by_cases e : j = id
      · subst e
        rw [hx] at hz
        cases hz
        exact .inner y _ (hkeep i y hi' hy) (hself hj) lt thread fy rfl
      · exact .inner y z (hkeep i y hi' hy) (hkeep j z e hz) lt thread fy fz

theorem dead_run {env : Env V} : ∀ (sch : List (TSched V)) {s : TState V} (_ : TInv s) {D : Nat → Prop}
    (_ : ∀ i, D i → ∃ j, D j ∧ Waits s i j), ∀ i, D i → ∃ j, D j ∧ Waits (s.run env sch) i j
  | [], _, _, _, hd => hd
  | .start tid f op :: sch, _, h, _, hd => dead_run sch (h.start tid f op) (dead_start hd tid f op)
  | .step id ans :: sch, _, h, _, hd => dead_run sch (h.step id ans) (dead_step h hd id ans)

/-- **C78**.  Deadlock: if each of a set of operations waits for one of them, then none of them is ever over,
whatever is scheduled and whatever user code comes to. -/
theorem C78_deadlock (env : Env V) (s : TState V) (h : Reached env s) (D : Nat → Prop)
    (hd : ∀ i, D i → ∃ j, D j ∧ Waits s i j) (sch : List (TSched V)) (i : Nat) (hi : D i) :
    Pending (s.run env sch) i := by
  obtain ⟨j, -, hw⟩ := dead_run (env := env) sch h.inv hd i hi
  exact waits_pending hw

/-- **C78**.  A predicate or closure of a static method that uses this method, and code that uses it while the
`ExpectationGuard` of `Context::expect` lives: neither the operation that executes this code nor the inner one
is ever over. -/
theorem C78_self (env : Env V) (s : TState V) (h : Reached env s) (i j : Nat) (x y : TAct V)
    (hx : s.acts[i]? = some x) (hy : s.acts[j]? = some y) (lt : i < j) (thread : x.act.tid = y.act.tid)
    (fx : x.finished = false) (fy : y.finished = false) (same : x.fn = y.fn) (sch : List (TSched V)) :
    Pending (s.run env sch) i ∧ Pending (s.run env sch) j := by
  have hu := h.inv.stack i j x y lt hx hy thread fx fy
  have hh := h.inv.holds i x hx (TAct.user_inside hu)
  have he := h.inv.self i j x y lt hx hy thread fx fy same
  have hd : ∀ n, (n = i ∨ n = j) → ∃ m, (m = i ∨ m = j) ∧ Waits s n m := by
    rintro n (rfl | rfl)
    · exact ⟨j, .inr rfl, .inner x y hx hy lt thread fx fy⟩
    · exact ⟨i, .inl rfl, .lock y hy (outside_iff.2 he) (by rw [← same]; exact hh)⟩
  exact ⟨C78_deadlock env s h _ hd sch i (.inl rfl), C78_deadlock env s h _ hd sch j (.inr rfl)⟩

/-- **C78**.  Two threads whose user code needs the method that the other one is in: user code of `f` on one
thread begins an operation on `g` while user code of `g` on another begins one on `f`.  None of the four is
ever over. -/
theorem C78_cycle (env : Env V) (s : TState V) (h : Reached env s) (i j i' j' : Nat) (x y x' y' : TAct V)
    (hx : s.acts[i]? = some x) (hy : s.acts[j]? = some y) (lt : i < j) (thread : x.act.tid = y.act.tid)
    (hx' : s.acts[i']? = some x') (hy' : s.acts[j']? = some y') (lt' : i' < j') (thread' : x'.act.tid = y'.act.tid)
    (fx : x.finished = false) (fx' : x'.finished = false) (out : Outside y) (out' : Outside y')
    (cross : y.fn = x'.fn) (cross' : y'.fn = x.fn) (sch : List (TSched V)) :
    ∀ n ∈ [i, j, i', j'], Pending (s.run env sch) n := by
  have fy := SPc.early_unfinished (outside_iff.1 out)
  have fy' := SPc.early_unfinished (outside_iff.1 out')
  have hh := h.inv.holds i x hx (TAct.user_inside (h.inv.stack i j x y lt hx hy thread fx fy))
  have hh' := h.inv.holds i' x' hx' (TAct.user_inside (h.inv.stack i' j' x' y' lt' hx' hy' thread' fx' fy'))
  intro n hn
  refine C78_deadlock env s h (· ∈ [i, j, i', j']) ?_ sch n hn
  intro m hm
  simp only [List.mem_cons, List.not_mem_nil, or_false] at hm
  rcases hm with rfl | rfl | rfl | rfl
  · exact ⟨j, by simp, .inner x y hx hy lt thread fx fy⟩
  · exact ⟨i', by simp, .lock y hy out (by rw [cross]; exact hh')⟩
  · exact ⟨j', by simp, .inner x' y' hx' hy' lt' thread' fx' fy'⟩
  · exact ⟨i, by simp, .lock y' hy' out' (by rw [cross']; exact hh)⟩

/-- **C78**.  Between the builder calls on an `ExpectationGuard` its thread may do what it likes, and if that uses the
method of the guard, with any operation, then neither this operation nor the expectation being built is ever
finished. -/
theorem C78_builder (env : Env V) (s : TState V) (h : Reached env s) (i n : Nat) (bs : List (Build V)) (x : TAct V)
    (hx : s.acts[i]? = some x) (hp : x.act.pc = .build n bs)
    (hin : ∀ (j : Nat) (y : TAct V), i < j → s.acts[j]? = some y → y.finished = false → y.act.tid ≠ x.act.tid)
    (op : SOp V) (sch : List (TSched V)) :
    Pending ((s.step env (.start x.act.tid x.fn op)).run env sch) i ∧
    Pending ((s.step env (.start x.act.tid x.fn op)).run env sch) s.acts.length := by
  have fx : x.finished = false := by simp [TAct.finished, SAct.finished, hp]
  have hm : s.mayStart x.act.tid = true := by
    rw [TState.mayStart_iff]
    intro k y hy fy ht
    rcases Nat.lt_trichotomy k i with hk | rfl | hk
    · exact h.inv.stack k i y x hk hy hx ht fy fx
    · rw [hx] at hy
      cases hy
      simp [TAct.user, hp]
    · exact absurd ht (hin k y hk hy fy)
  have hl := (List.getElem?_eq_some_iff.1 hx).1
  have hs : s.step env (.start x.act.tid x.fn op) =
      { s with acts := s.acts ++ [⟨x.fn, ⟨x.act.tid, op, op.start⟩⟩] } := by
    simp only [TState.step, hm, if_true]
  have hr : Reached env (s.step env (.start x.act.tid x.fn op)) := by
    obtain ⟨fns, w, sch', rfl⟩ := h
    exact ⟨fns, w, sch' ++ [.start x.act.tid x.fn op], by simp [TState.run]⟩
  refine C78_self env _ hr i s.acts.length x ⟨x.fn, ⟨x.act.tid, op, op.start⟩⟩ ?_ ?_ hl rfl fx ?_ rfl sch
  · rw [hs]; simp only; rw [List.getElem?_append_left hl]; exact hx
  · rw [hs]; simp
  · cases op <;> rfl

end Mockall
