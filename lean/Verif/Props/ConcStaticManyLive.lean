import Verif.Props.ConcStaticMany
import Verif.Props.ConcStaticNestedLive

/-! # Static methods that share sequences, used concurrently: every operation comes to its end (C89) -/

namespace Mockall.Props

open Spec Spec.Many

variable {V : Type}

/-- How far all operations are from their ends. -/
def manyMeasure (env : Env V) (s : ManyState V) : Nat × Nat :=
  ((s.acts.map fun x => x.act.pc.entry).sum,
    (s.acts.map fun x => (s.statics[x.fn]?).elim 0 fun sf => x.act.left env sf).sum)

theorem Live.lt {env : Env V} {s s' : ManyState V} (h : Live s) {id : Nat} {x : TAct V} (hx : s.acts[id]? = some x)
    (hs : s.stepAct env id x = some s') : MLt (manyMeasure env s') (manyMeasure env s) := by
  have hfn := h.fine x (List.mem_of_getElem? hx)
  have hlen := (List.getElem?_eq_some_iff.1 hx).1
  simp only [ManyState.stepAct, List.getElem?_eq_getElem hfn, Option.map_eq_some_iff] at hs
  obtain ⟨t, ht, rfl⟩ := hs
  obtain ⟨pc', ha', -, hst, -⟩ := SAct.step_shape ht
  obtain ⟨pc, ha, hlt⟩ := SAct.step_left ht
  dsimp only at ha hlt hst
  have hact : (t.acts[id]?).getD x.act = { x.act with pc := pc } := by
    rw [ha, List.getElem?_set_self (by simpa using hlen)]; rfl
  unfold manyMeasure
  dsimp only
  rw [hact]
  rcases hlt with hlt | ⟨e1, e2, -, hlt⟩
  · exact Prod.Lex.left _ _ (sum_set_lt hx (fun _ _ _ _ => rfl) hlt)
  · rw [sum_set_eq hx (fun _ _ _ _ => rfl) (by rw [e1]; exact e2)]
    refine Prod.Lex.right _ (sum_set_lt hx ?_ ?_)
    · intro j y hj hy
      have hyf := h.fine y (List.mem_of_getElem? hy)
      by_cases e : y.fn = x.fn
      · rw [e, List.getElem?_set_self hfn, List.getElem?_eq_getElem hfn]
        simp only [Option.elim_some]
        cases hi : y.act.pc.inside with
        | false => exact SAct.left_outside _ _ _ _ hi
        | true =>
          refine SAct.left_congr _ _ _ _ ?_
          cases hxi : x.act.pc.inside with
          | true =>
            have h1 := h.holder id x hx hxi
            have h2 := h.holder j y hy hi
            rw [e, h1] at h2
            exact absurd (Option.some.inj h2).symm hj
          | false => exact (hst hxi).1
      · rw [List.getElem?_set_ne (Ne.symm e)]
    · simp only [List.getElem?_set_self hfn, List.getElem?_eq_getElem hfn, Option.elim_some]
      exact hlt

theorem goOn_succ (env : Env V) (pick : Nat → Nat) (s : ManyState V) (n : Nat) :
    goOn env pick s (n + 1) = (goOn env pick s n).step env (.step (pick n)) := by
  simp [goOn, ManyState.run, List.range_succ]

theorem goOn_live {env : Env V} {s : ManyState V} (h : Live s) (pick : Nat → Nat) (n : Nat) :
    Live (goOn env pick s n) := by
  induction n with
  | zero => exact h
  | succ n ih => rw [goOn_succ]; exact ih.step _

theorem Live.step_lt {env : Env V} {s : ManyState V} (h : Live s) (id : Nat) :
    s.step env (.step id) = s ∨ MLt (manyMeasure env (s.step env (.step id))) (manyMeasure env s) := by
  simp only [ManyState.step]
  split
  · exact .inl rfl
  rename_i x hx
  cases hs : s.stepAct env id x with
  | none => exact .inl rfl
  | some s' => exact .inr (h.lt hx hs)

/-- If states never go up in a well-founded order, unless they stay the same, they stay the same for ever. -/
theorem settles {α β : Type} {r : β → β → Prop} (wf : WellFounded r) (m : α → β) (f : Nat → α)
    (h : ∀ n, f (n + 1) = f n ∨ r (m (f (n + 1))) (m (f n))) : ∃ N, ∀ n, N ≤ n → f n = f N := by
  have : ∀ (b : β) (k : Nat), m (f k) = b → ∃ N, ∀ n, N ≤ n → f n = f N := by
    intro b
    induction b using wf.induction with
    | _ b ih =>
      intro k hk
      by_cases hall : ∀ n, k ≤ n → f n = f k
      · exact ⟨k, hall⟩
      · obtain ⟨n, hne⟩ := Classical.not_forall.1 hall
        obtain ⟨hkn, hn⟩ := Classical.not_imp.1 hne
        have : ∃ j, f j = f k ∧ f (j + 1) ≠ f k := by
          clear ih hall hne
          induction n with
          | zero => exact absurd (by rw [Nat.le_zero.1 hkn]) hn
          | succ n ihn =>
            by_cases e : f n = f k
            · exact ⟨n, e, hn⟩
            · refine ihn ?_ e
              rcases Nat.lt_or_ge n k with hlt | hge
              · exact absurd (by rw [show n + 1 = k by omega]) hn
              · exact hge
        obtain ⟨j, hj, hj1⟩ := this
        rcases h j with e | e
        · exact absurd (e.trans hj) hj1
        · rw [hj, hk] at e
          exact ih _ e (j + 1) rfl
  exact this _ 0 rfl

/-- **C89**.  Every operation comes to its end: whatever the threads did so far, and whatever they are in the middle
of, if no new operations are begun and the scheduler forgets none of those that are not over, then at some time all of
them are over, and stay so. -/
theorem C89_completes (env : Env V) (s0 : Sys V) (sch : List (ManySched V)) (pick : Nat → Nat) (hp : Fair pick) :
    ∃ N, ∀ n, N ≤ n → ∀ x ∈ (goOn env pick ((ManyState.rest s0).run env sch) n).acts, x.finished = true := by
  have hl := live_run env s0 sch
  have hprog : ∀ n, let s := goOn env pick ((ManyState.rest s0).run env sch) n
      (∃ x ∈ s.acts, x.finished = false) →
      ∃ (id : Nat) (x : TAct V), s.acts[id]? = some x ∧ x.finished = false ∧ (s.stepAct env id x).isSome = true := by
    intro n
    have := C89_progress env s0 (sch ++ (List.range n).map fun i => .step (pick i))
    simpa only [goOn, ManyState.run, List.foldl_append] using this
  generalize (ManyState.rest s0).run env sch = s at hl hprog
  obtain ⟨N, hN⟩ := settles MLt.wf (manyMeasure env) (goOn env pick s) fun n => by
    rw [goOn_succ]; exact (goOn_live hl pick n).step_lt _
  refine ⟨N, fun n hn x hx => ?_⟩
  rw [hN n hn] at hx
  cases hf : x.finished with
  | true => rfl
  | false =>
    exfalso
    obtain ⟨id, y, hy, -, hs⟩ := hprog N ⟨x, hx, hf⟩
    obtain ⟨k, hk, hid⟩ := hp id N
    obtain ⟨s', hs'⟩ := Option.isSome_iff_exists.1 hs
    have h1 := hN (k + 1) (by omega)
    rw [goOn_succ, hN k hk, hid] at h1
    simp only [ManyState.step, hy, hs', Option.getD_some] at h1
    have := (goOn_live (env := env) hl pick N).lt hy hs'
    rw [h1] at this
    exact MLt.irrefl _ this

section Examples

/-- A fair schedule: 0, then 0 1, then 0 1 2 3, and so on. -/
def manyTurns (n : Nat) : Nat := n - 2 ^ n.log2

theorem manyTurns_fair : Fair manyTurns := by
  intro id N
  have h1 : id + N < 2 ^ (id + N) := Nat.lt_two_pow_self
  refine ⟨2 ^ (id + N) + id, by omega, ?_⟩
  have : (2 ^ (id + N) + id).log2 = id + N := (Nat.log2_eq_iff (by omega)).2 ⟨by omega, by rw [Nat.pow_succ]; omega⟩
  simp only [manyTurns, this]
  omega

/-- Two threads in the middle of a call and of a drop while panicking, and a third one that waits for the mutex. -/
def manyStuck : List (ManySched Nat) :=
  [.start 1 0 (.call 0 [5]), .start 2 1 .dropPanicking, .start 3 0 .checkpoint] ++
  [.step 0, .step 0, .step 1, .step 2, .step 2]

def manyMiddle : ManyState Nat := (ManyState.rest (Sys.run manyEnv manySetUp (Sys.init manySts)).2).run manyEnv manyStuck

example : manyMiddle.acts.map (fun x => (x.act.pc.inside, x.finished)) =
    [(true, false), (false, false), (false, false)] := by rfl

example : ∃ N, ∀ n, N ≤ n → ∀ x ∈ (goOn manyEnv manyTurns manyMiddle n).acts, x.finished = true :=
  C89_completes manyEnv _ manyStuck manyTurns manyTurns_fair

end Examples

end Mockall.Props
