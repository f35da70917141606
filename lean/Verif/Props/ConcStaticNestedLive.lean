import Verif.Props.ConcStaticNested

/-! # Static methods used by user code: progress (C78) -/

namespace Mockall

open Spec

variable {V : Type}

/-! ## Every operation is finite -/

/-- The steps before the mutex. -/
def SPc.entry : SPc V → Nat
  | .clear => 2
  | .wait => 1
  | .tryWait => 1
  | _ => 0

/-- A bound on the steps after it. -/
def SAct.left (env : Env V) (sf : StaticFn V) (act : SAct V) : Nat :=
  let n := (sf.store.vec act.op.key).length
  match act.pc with
  | .scan i => 9 + 2 * (n - i)
  | .check i => 8 + 2 * (n - i)
  | .inc _ => 7
  | .verify _ => 6
  | .sat _ => 5
  | .satisfy _ => 4
  | .ret _ => 3
  | .leave _ => 2
  | .answer _ => 1
  | .push => 4 + act.op.chain.length
  | .build _ bs => 3 + bs.length
  | .leaveExpect _ _ => 2
  | .drain => 3 + (sf.store.elems env).length
  | .leaveDrain es => 2 + es.length
  | .dropping _ es => 1 + es.length
  | _ => 0

theorem SAct.left_outside (env : Env V) (sf sf' : StaticFn V) (act : SAct V) (h : act.pc.inside = false) :
    act.left env sf' = act.left env sf := by
  obtain ⟨tid, op, pc⟩ := act
  cases pc <;> simp_all [SPc.inside, SPc.working, SAct.left]

theorem SAct.left_congr (env : Env V) (sf sf' : StaticFn V) (act : SAct V) (h : sf'.store = sf.store) :
    act.left env sf' = act.left env sf := by
  unfold SAct.left; rw [h]

theorem StaticFn.edit_length (k : Key) (i : Nat) (g : Expectation V → Expectation V) (sf : StaticFn V) :
    ((sf.edit k i g).store.vec k).length = (sf.store.vec k).length := by
  unfold StaticFn.edit
  split
  · rename_i e he
    simp only [Store.vec_setVec he, List.length_set]
  · rfl

/-- Inside, except at `drain`, only the number of expectations matters. -/
theorem SAct.left_length (env : Env V) (sf sf' : StaticFn V) (act : SAct V) (hd : act.pc ≠ .drain)
    (h : (sf'.store.vec act.op.key).length = (sf.store.vec act.op.key).length) :
    act.left env sf' = act.left env sf := by
  obtain ⟨tid, op, pc⟩ := act
  simp only at h
  cases pc <;> simp_all [SAct.left]

theorem SAct.inner_left (env : Env V) (act : SAct V) (sf : StaticFn V) (w : World V) (h : act.pc.working = true) :
    (SAct.left env (act.inner env sf w).2.1 { act with pc := (act.inner env sf w).1 }) < act.left env sf ∧
    (act.inner env sf w).1 ≠ .drain := by
  obtain ⟨tid, op, pc⟩ := act
  have hlt : ∀ {i : Nat} {e : Expectation V}, (sf.store.vec op.key)[i]? = some e →
      i < (sf.store.vec op.key).length := fun h => (List.getElem?_eq_some_iff.1 h).1
  cases pc with
  | scan i =>
    simp only [SAct.inner]
    split
    · (simp [SAct.left]; try omega)
    · rename_i e he
      have := hlt he
      simp only
      split <;> simp [SAct.left, Store.vec_setVec he] <;> omega
  | check i =>
    simp only [SAct.inner]
    split
    · (simp [SAct.left]; try omega)
    · rename_i e he
      have := hlt he
      split
      · (simp [SAct.left]; try omega)
      · split <;> (simp [SAct.left]; try omega)
  | inc i =>
    simp only [SAct.inner]
    repeat' split
    all_goals (simp [SAct.left]; try omega)
  | verify i =>
    simp only [SAct.inner]
    repeat' split
    all_goals (simp [SAct.left]; try omega)
  | sat i =>
    simp only [SAct.inner]
    repeat' split
    all_goals (simp [SAct.left]; try omega)
  | satisfy i =>
    simp only [SAct.inner]
    repeat' split
    all_goals (simp [SAct.left]; try omega)
  | ret i =>
    simp only [SAct.inner]
    repeat' split
    all_goals (simp [SAct.left]; try omega)
  | push => (simp [SAct.inner, SAct.left]; try omega)
  | build i bs =>
    simp only [SAct.inner]
    repeat' split
    all_goals (simp [SAct.left]; try omega)
  | drain => (simp [SAct.inner, SAct.left]; try omega)
  | _ => simp [SPc.working] at h

/-- One step brings the operation nearer to its end. -/
theorem SAct.step_left {env : Env V} {id : Nat} {act : SAct V} {t t' : SState V} (h : act.step env id t = some t') :
    ∃ pc, t'.acts = t.acts.set id { act with pc := pc } ∧
      (pc.entry < act.pc.entry ∨ (act.pc.entry = 0 ∧ pc.entry = 0 ∧ pc ≠ .drain ∧
        SAct.left env t'.sf { act with pc := pc } < act.left env t.sf)) := by
  obtain ⟨tid, op, pc⟩ := act
  have hwork : ∀ (hw : pc.working = true), SAct.step env id ⟨tid, op, pc⟩ t =
      some { t with sf := (SAct.inner env ⟨tid, op, pc⟩ t.sf t.world).2.1
                    world := (SAct.inner env ⟨tid, op, pc⟩ t.sf t.world).2.2
                    acts := t.acts.set id ⟨tid, op, (SAct.inner env ⟨tid, op, pc⟩ t.sf t.world).1⟩ } := by
    intro hw
    cases pc <;> simp only [SPc.working, Bool.false_eq_true] at hw <;> rfl
  by_cases hw : pc.working = true
  · rw [hwork hw] at h
    cases h
    have hin := SAct.inner_inside env ⟨tid, op, pc⟩ t.sf t.world hw
    have hl := SAct.inner_left env ⟨tid, op, pc⟩ t.sf t.world hw
    refine ⟨_, rfl, .inr ⟨?_, ?_, hl.2, hl.1⟩⟩
    · cases pc <;> simp_all [SPc.working, SPc.entry]
    · generalize (SAct.inner env ⟨tid, op, pc⟩ t.sf t.world).1 = q at hin
      cases q <;> simp_all [SPc.inside, SPc.working, SPc.entry]
  · cases pc with
    | clear => cases h; exact ⟨.tryWait, rfl, .inl (by simp [SPc.entry])⟩
    | tryWait =>
      simp only [SAct.step] at h
      split at h
      · cases h
      · split at h <;> cases h <;> exact ⟨_, rfl, .inl (by simp [SPc.entry])⟩
    | wait =>
      simp only [SAct.step] at h
      split at h
      · cases h
      · split at h <;> cases h
        · exact ⟨_, rfl, .inl (by simp [SPc.entry])⟩
        · exact ⟨_, rfl, .inl (by cases op <;> simp [SPc.entry, SOp.first])⟩
    | leave r => cases h; exact ⟨_, rfl, .inr ⟨rfl, rfl, by simp, by simp only [SAct.left, List.length_nil, List.length_cons]; omega⟩⟩
    | answer r => cases h; exact ⟨_, rfl, .inr ⟨rfl, rfl, by simp, by simp only [SAct.left, List.length_nil, List.length_cons]; omega⟩⟩
    | leaveExpect i r => cases h; exact ⟨_, rfl, .inr ⟨rfl, rfl, by simp, by simp only [SAct.left, List.length_nil, List.length_cons]; omega⟩⟩
    | leaveDrain es => cases h; exact ⟨_, rfl, .inr ⟨rfl, rfl, by simp, by simp only [SAct.left, List.length_nil, List.length_cons]; omega⟩⟩
    | dropping p es =>
      cases es with
      | nil => cases h; exact ⟨_, rfl, .inr ⟨rfl, rfl, by simp, by simp only [SAct.left, List.length_nil, List.length_cons]; omega⟩⟩
      | cons e es =>
        simp only [SAct.step] at h
        repeat' split at h
        all_goals
          cases h
          exact ⟨_, rfl, .inr ⟨rfl, rfl, by simp, by simp only [SAct.left, List.length_nil, List.length_cons]; omega⟩⟩
    | done o => cases h
    | _ => simp [SPc.working] at hw

theorem StaticFn.edit_left (env : Env V) (i : Nat) (g : Expectation V → Expectation V) (sf : StaticFn V)
    (act : SAct V) (hd : act.pc ≠ .drain) : act.left env (sf.edit act.op.key i g) = act.left env sf :=
  SAct.left_length env _ _ act hd (StaticFn.edit_length _ _ _ _)

theorem TState.stepAct_left {env : Env V} {s s' : TState V} {id : Nat} {x : TAct V} {ans : Answer V}
    (hx : s.acts[id]? = some x) (h : s.stepAct env id x ans = some s') :
    ∃ pc, s'.acts = s.acts.set id { x with act := { x.act with pc := pc } } ∧
      (pc.entry < x.act.pc.entry ∨ (x.act.pc.entry = 0 ∧ pc.entry = 0 ∧
        SAct.left env (s'.fns x.fn) { x.act with pc := pc } < x.act.left env (s.fns x.fn))) := by
  unfold TState.stepAct at h
  simp only at h
  split at h
  · cases h
  · rename_i t ht
    cases h
    obtain ⟨pc, h1, h2⟩ := SAct.step_left ht
    have hlen := (List.getElem?_eq_some_iff.1 hx).1
    refine ⟨pc, ?_, ?_⟩
    · simp only [h1]
      congr 2
      rw [List.getElem?_set_self (by simpa using hlen)]
      rfl
    · refine h2.imp_right ?_
      rintro ⟨e1, e2, e3, e4⟩
      refine ⟨e1, e2, ?_⟩
      simp only [if_true]
      cases hp : x.act.pc.place with
      | none => simpa only [hp] using e4
      | some i =>
        have hd : x.act.pc ≠ .drain := by intro hc; rw [hc] at hp; cases hp
        simp only [hp] at e4
        rw [StaticFn.edit_left env i _ _ x.act hd] at e4
        simp only
        split
        · exact Nat.lt_of_le_of_lt (Nat.le_of_eq (StaticFn.edit_left env i _ _ { x.act with pc := pc } e3)) e4
        · exact e4

theorem sum_set_lt {α : Type} {f g : α → Nat} {x' : α} : ∀ {l : List α} {i : Nat} {x : α}, l[i]? = some x →
    (∀ (j : Nat) (y : α), j ≠ i → l[j]? = some y → g y = f y) → g x' < f x →
    ((l.set i x').map g).sum < (l.map f).sum
  | [], _, _, h, _, _ => by simp at h
  | a :: l, 0, x, h, hj, hlt => by
    simp only [List.getElem?_cons_zero, Option.some.injEq] at h
    subst h
    have : l.map g = l.map f := List.map_congr_left fun y hy => by
      obtain ⟨n, hn⟩ := List.mem_iff_getElem?.1 hy
      exact hj (n + 1) y (by omega) (by simpa using hn)
    simp only [List.set_cons_zero, List.map_cons, List.sum_cons, this]
    omega
  | a :: l, i + 1, x, h, hj, hlt => by
    have ih := sum_set_lt (l := l) (i := i) (x := x) (by simpa using h)
      (fun j y hne hy => hj (j + 1) y (by omega) (by simpa using hy)) hlt
    have := hj 0 a (by omega) (by simp)
    simp only [List.set_cons_succ, List.map_cons, List.sum_cons, this]
    omega

theorem sum_set_eq {α : Type} {f g : α → Nat} {x' : α} {l : List α} {i : Nat} {x : α} (hx : l[i]? = some x)
    (hj : ∀ (j : Nat) (y : α), j ≠ i → l[j]? = some y → g y = f y) (he : g x' = f x) :
    ((l.set i x').map g).sum = (l.map f).sum := by
  congr 1
  apply List.ext_getElem?
  intro n
  simp only [List.getElem?_map, List.getElem?_set]
  split
  · rename_i e
    subst e
    rw [if_pos (List.getElem?_eq_some_iff.1 hx).1, hx]
    simp [he]
  · rename_i e
    cases hn : l[n]? with
    | none => rfl
    | some y => simp [hj n y (fun h => e h.symm) hn]

/-- How far all operations are from their ends. -/
def TState.measure (env : Env V) (s : TState V) : Nat × Nat :=
  ((s.acts.map fun x => x.act.pc.entry).sum, (s.acts.map fun x => x.act.left env (s.fns x.fn)).sum)

/-- The order on distances. -/
abbrev MLt : Nat × Nat → Nat × Nat → Prop := Prod.Lex (· < ·) (· < ·)

theorem MLt.wf : WellFounded MLt := (Prod.lex Nat.lt_wfRel Nat.lt_wfRel).wf

theorem MLt.irrefl (a : Nat × Nat) : ¬ MLt a a := by
  intro h
  cases h with
  | left _ _ h => exact absurd h (Nat.lt_irrefl _)
  | right _ h => exact absurd h (Nat.lt_irrefl _)

theorem TInv.stepAct_lt {env : Env V} {s s' : TState V} (h : TInv s) {id : Nat} {x : TAct V} {ans : Answer V}
    (hx : s.acts[id]? = some x) (hs : s.stepAct env id x ans = some s') : MLt (s'.measure env) (s.measure env) := by
  obtain ⟨pc, hacts, hlt⟩ := TState.stepAct_left hx hs
  obtain ⟨pc', hacts', hother, hst, -⟩ := TState.stepAct_shape hx hs
  unfold TState.measure
  rcases hlt with hlt | ⟨e1, e2, hlt⟩
  · refine Prod.Lex.left _ _ ?_
    rw [hacts]
    exact sum_set_lt hx (fun _ _ _ _ => rfl) hlt
  · have h1 : (s'.acts.map fun x => x.act.pc.entry).sum = (s.acts.map fun x => x.act.pc.entry).sum := by
      rw [hacts]
      exact sum_set_eq hx (fun _ _ _ _ => rfl) (by rw [e1]; exact e2)
    rw [h1]
    refine Prod.Lex.right _ ?_
    rw [hacts]
    refine sum_set_lt hx ?_ hlt
    intro j y hj hy
    cases hi : y.act.pc.inside with
    | false => exact SAct.left_outside _ _ _ _ hi
    | true =>
      refine SAct.left_congr _ _ _ _ ?_
      by_cases e : y.fn = x.fn
      · cases hxi : x.act.pc.inside with
        | true =>
          have h1 := h.holds id x hx hxi
          have h2 := h.holds j y hy hi
          rw [e, h1] at h2
          exact absurd (Option.some.inj h2).symm hj
        | false => rw [e]; exact (hst hxi).1
      · rw [(hother _ e).1]

/-- A step changes nothing, or something comes nearer to its end. -/
theorem TInv.step_lt {env : Env V} {s : TState V} (h : TInv s) (id : Nat) (ans : Answer V) :
    s.step env (.step id ans) = s ∨ MLt ((s.step env (.step id ans)).measure env) (s.measure env) := by
  simp only [TState.step]
  split
  · exact .inl rfl
  rename_i x hx
  split
  case isFalse => exact .inl rfl
  cases hs : s.stepAct env id x ans with
  | none => exact .inl rfl
  | some s' => exact .inr (h.stepAct_lt hx hs)

theorem after_shift (env : Env V) (pick : Nat → Nat × Answer V) (s : TState V) (m n : Nat) :
    after env pick s (m + n) = after env (fun i => pick (m + i)) (after env pick s m) n := by
  induction n with
  | zero => rfl
  | succ n ih => rw [← Nat.add_assoc]; simp only [after]; rw [ih]

theorem after_inv {env : Env V} {s : TState V} (h : TInv s) (pick : Nat → Nat × Answer V) :
    ∀ n, TInv (after env pick s n)
  | 0 => h
  | n + 1 => (after_inv h pick n).step _ _

/-- **C78**.  No operation runs for ever: if no new ones are begun, then from some point on nothing changes any
more, whatever is scheduled and whatever user code comes to. -/
theorem C78_terminates (env : Env V) (s : TState V) (h : Reached env s) (pick : Nat → Nat × Answer V) :
    ∃ N, ∀ n, N ≤ n → after env pick s n = after env pick s N := by
  have : ∀ (m : Nat × Nat) (s : TState V) (pick : Nat → Nat × Answer V), TInv s → s.measure env = m →
      ∃ N, ∀ n, N ≤ n → after env pick s n = after env pick s N := by
    intro m
    induction m using MLt.wf.induction with
    | _ m ih =>
      intro s pick h hm
      by_cases hall : ∀ n, after env pick s n = s
      · exact ⟨0, fun n _ => by rw [hall n, hall 0]⟩
      · obtain ⟨n, hn⟩ := Classical.not_forall.1 hall
        have hfirst : ∃ k, after env pick s k = s ∧ after env pick s (k + 1) ≠ s := by
          clear ih hm hall
          induction n with
          | zero => exact absurd rfl hn
          | succ n ihn =>
            by_cases e : after env pick s n = s
            · exact ⟨n, e, hn⟩
            · exact ihn e
        obtain ⟨k, hk, hk1⟩ := hfirst
        have hlt : MLt ((after env pick s (k + 1)).measure env) m := by
          rcases (after_inv (env := env) h pick k).step_lt (env := env) (pick k).1 (pick k).2 with e | e
          · exact absurd (e.trans hk) hk1
          · rw [hk, hm] at e
            simp only [after]
            rw [hk]
            exact e
        obtain ⟨N, hN⟩ := ih _ hlt _ (fun i => pick (k + 1 + i)) (after_inv h pick (k + 1)) rfl
        refine ⟨k + 1 + N, fun n hn => ?_⟩
        have := hN (n - (k + 1)) (by omega)
        rw [← after_shift, ← after_shift] at this
        rwa [show k + 1 + (n - (k + 1)) = n by omega] at this
  exact this _ s pick h.inv rfl

/-! ## Progress -/

theorem TInv.moves {env : Env V} {s : TState V} (h : TInv s) {i : Nat} {x : TAct V} (hx : s.acts[i]? = some x)
    (hf : x.finished = false) : Moves env s i ∨ ∃ j, Waits s i j := by
  by_cases hin : s.innermost i x.act.tid = true
  · by_cases hw : x.act.pc.early = true ∧ s.held x.fn ≠ none
    · obtain ⟨j, hj⟩ := Option.ne_none_iff_exists'.1 hw.2
      exact .inr ⟨j, .lock x hx (outside_iff.2 hw.1) hj⟩
    · left
      intro ans
      simp only [TState.step, hx, hin, if_true]
      cases hs : s.stepAct env i x ans with
      | none =>
        rcases TState.stepAct_none hs with e | e
        · rw [hf] at e; cases e
        · exact absurd e hw
      | some s' =>
        intro e
        have hlt := h.stepAct_lt hx hs
        simp only [Option.getD_some] at e
        rw [e] at hlt
        exact MLt.irrefl _ hlt
  · right
    have : ¬ ∀ (j : Nat) (y : TAct V), i < j → s.acts[j]? = some y → y.finished = false → y.act.tid ≠ x.act.tid :=
      fun hc => hin (TState.innermost_iff.2 hc)
    simp only [Classical.not_forall, Classical.not_not] at this
    obtain ⟨j, y, lt, hy, fy, ht⟩ := this
    exact ⟨j, .inner x y hx hy lt ht.symm hf fy⟩

/-- **C78**.  There are no other reasons to wait: an operation that is not over can make a step, or waits for
one that is not over either. -/
theorem C78_waits (env : Env V) (s : TState V) (h : Reached env s) (i : Nat) (hi : Pending s i) :
    Moves env s i ∨ ∃ j, Waits s i j ∧ Pending s j := by
  obtain ⟨x, hx, hf⟩ := hi
  refine (h.inv.moves hx hf).imp_right ?_
  rintro ⟨j, hw⟩
  refine ⟨j, hw, ?_⟩
  cases hw with
  | lock x' hx' out held =>
    obtain ⟨y, hy, -, hin⟩ := h.inv.held _ _ held
    exact ⟨y, hy, SPc.inside_unfinished hin⟩
  | inner x' y hx' hy lt thread fx fy => exact ⟨y, hy, fy⟩

theorem TInv.progress {env : Env V} {s : TState V} (h : TInv s) {rank : Nat → Nat} (hr : Descends rank s) :
    ∀ (m i : Nat) (x : TAct V), s.acts[i]? = some x → x.finished = false →
      2 * rank x.fn + (if x.act.pc.early then 1 else 0) ≤ m → ∃ j, Moves env s j
  | m, i, x, hx, hf, hm => by
    rcases h.moves (env := env) hx hf with hmv | ⟨j, hw⟩
    · exact ⟨i, hmv⟩
    cases hw with
    | lock x' hx' out held =>
      rw [hx] at hx'
      cases hx'
      obtain ⟨y, hy, e, hin⟩ := h.held _ _ held
      have he : y.act.pc.early = false := by
        cases hc : y.act.pc.early with
        | false => rfl
        | true => rw [SPc.early_inside hc] at hin; cases hin
      rw [outside_iff.1 out] at hm
      simp only [if_true] at hm
      match m, hm with
      | m + 1, hm =>
        refine TInv.progress h hr m j y hy (SPc.inside_unfinished hin) ?_
        rw [he, e]
        simpa using hm
    | inner x' y hx' hy lt thread fx fy =>
      rw [hx] at hx'
      cases hx'
      have := hr i j x y lt hx hy thread fx fy
      match m, hm with
      | 0, hm => omega
      | m + 1, hm =>
        refine TInv.progress h hr m j y hy fy ?_
        split <;> omega

/-- **C78**.  If user code of a method only uses methods of lower rank, in whatever way the methods are ranked,
then there is no deadlock: as long as some operation is not over, one can make a step. -/
theorem C78_progress (env : Env V) (s : TState V) (h : Reached env s) (rank : Nat → Nat) (hr : Descends rank s)
    (i : Nat) (hi : Pending s i) : ∃ j, Moves env s j := by
  obtain ⟨x, hx, hf⟩ := hi
  exact h.inv.progress hr _ i x hx hf (Nat.le_refl _)

theorem TState.step_acts {env : Env V} {s : TState V} (id : Nat) (ans : Answer V) :
    (s.step env (.step id ans)).acts = s.acts ∨ ∃ (x : TAct V) (pc : SPc V), s.acts[id]? = some x ∧ x.finished = false ∧
      (s.step env (.step id ans)).acts = s.acts.set id { x with act := { x.act with pc := pc } } := by
  simp only [TState.step]
  split
  · exact .inl rfl
  rename_i x hx
  split
  case isFalse => exact .inl rfl
  cases hs : s.stepAct env id x ans with
  | none => exact .inl rfl
  | some s' =>
    obtain ⟨pc, hacts, -⟩ := TState.stepAct_shape hx hs
    refine .inr ⟨x, pc, hx, ?_, hacts⟩
    cases hf : x.finished with
    | false => rfl
    | true =>
      exfalso
      unfold TState.stepAct at hs
      obtain ⟨fn, tid, op, pc'⟩ := x
      cases pc' <;> simp [TAct.finished, SAct.finished] at hf
      simp [SAct.step] at hs

theorem descends_step {env : Env V} {s : TState V} {rank : Nat → Nat} (h : Descends rank s) (id : Nat)
    (ans : Answer V) : Descends rank (s.step env (.step id ans)) := by
  have hold : ∀ (n : Nat) (y : TAct V), (s.step env (.step id ans)).acts[n]? = some y → y.finished = false →
      ∃ x, s.acts[n]? = some x ∧ x.finished = false ∧ x.fn = y.fn ∧ x.act.tid = y.act.tid := by
    intro n y hy fy
    rcases TState.step_acts (env := env) (s := s) id ans with e | ⟨x, pc, hx, hf, e⟩
    · rw [e] at hy
      exact ⟨y, hy, fy, rfl, rfl⟩
    · rw [e, List.getElem?_set] at hy
      split at hy
      · rename_i hn
        subst hn
        split at hy
        · cases hy
          exact ⟨x, hx, hf, rfl, rfl⟩
        · cases hy
      · exact ⟨y, hy, fy, rfl, rfl⟩
  intro i j x y lt hx hy ht fx fy
  obtain ⟨x', hx', fx', e1, e2⟩ := hold i x hx fx
  obtain ⟨y', hy', fy', e3, e4⟩ := hold j y hy fy
  rw [← e1, ← e3]
  exact h i j x' y' lt hx' hy' (by rw [e2, e4, ht]) fx' fy'

/-- **C78**.  Then all operations can be brought to their ends, whatever user code comes to. -/
theorem C78_completes (env : Env V) (s : TState V) (h : Reached env s) (rank : Nat → Nat) (hr : Descends rank s)
    (ans : TState V → Nat → Answer V) : ∃ ids, ∀ i, ¬ Pending (follow env ans ids s) i := by
  have : ∀ (m : Nat × Nat) (s : TState V), TInv s → Descends rank s → s.measure env = m →
      ∃ ids, ∀ i, ¬ Pending (follow env ans ids s) i := by
    intro m
    induction m using MLt.wf.induction with
    | _ m ih =>
      intro s h hr hm
      by_cases hp : ∃ i, Pending s i
      · obtain ⟨i, x, hx, hf⟩ := hp
        obtain ⟨j, hj⟩ := h.progress (env := env) hr _ i x hx hf (Nat.le_refl _)
        rcases h.step_lt (env := env) j (ans s j) with e | e
        · exact absurd e (hj _)
        · rw [hm] at e
          obtain ⟨ids, hids⟩ := ih _ e _ (h.step _ _) (descends_step hr _ _) rfl
          exact ⟨j :: ids, hids⟩
      · exact ⟨[], fun i hi => hp ⟨i, hi⟩⟩
  exact this _ s h.inv hr rfl

end Mockall
