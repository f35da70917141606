import Verif.Conc.StaticNested
import Verif.Lemmas.ConcStatic

/-! # Helper lemmas: static methods used by user code -/

namespace Mockall

variable {V : Type}

/-- The places before the mutex. -/
def SPc.early : SPc V → Bool
  | .clear | .wait | .tryWait => true
  | _ => false

/-- One step, as far as the mutex is concerned. -/
theorem SAct.step_shape {env : Env V} {id : Nat} {act : SAct V} {t t' : SState V} (h : act.step env id t = some t') :
    ∃ pc, t'.acts = t.acts.set id { act with pc := pc } ∧ t'.sf.mi = t.sf.mi ∧
      (act.pc.inside = false → t'.sf.store = t.sf.store ∧ t'.world = t.world) ∧
      (act.pc.inside = true → t'.held = if pc.inside then t.held else none) ∧
      (act.pc.inside = false → t'.held = (if pc.inside then some id else t.held) ∧
        (pc.inside = true → t.held = none)) ∧
      (act.pc.early = true → t.held ≠ none → act.pc = .clear ∧ pc = .tryWait) := by
  obtain ⟨tid, op, pc⟩ := act
  have hwork : ∀ (hw : pc.working = true), SAct.step env id ⟨tid, op, pc⟩ t =
      some { t with sf := (SAct.inner env ⟨tid, op, pc⟩ t.sf t.world).2.1
                    world := (SAct.inner env ⟨tid, op, pc⟩ t.sf t.world).2.2
                    acts := t.acts.set id ⟨tid, op, (SAct.inner env ⟨tid, op, pc⟩ t.sf t.world).1⟩ } := by
    intro hw
    cases pc <;> simp only [SPc.working, Bool.false_eq_true] at hw <;> rfl
  by_cases hw : pc.working = true
  · rw [hwork hw] at h
    cases h
    have hin := SAct.inner_inside env ⟨tid, op, pc⟩ t.sf t.world hw
    have hi : pc.inside = true := by cases pc <;> simp_all [SPc.working, SPc.inside]
    have he : pc.early = false := by cases pc <;> simp_all [SPc.working, SPc.early]
    exact ⟨_, rfl, SAct.inner_mi _ _ _ _, by simp [hi], by simp [hin], by simp [hi], by simp [he]⟩
  · cases pc with
    | clear =>
      cases h
      exact ⟨.tryWait, rfl, rfl, by simp, by simp [SPc.inside, SPc.working], by simp [SPc.inside, SPc.working],
        by simp⟩
    | tryWait =>
      simp only [SAct.step] at h
      split at h
      · cases h
      · rename_i hh
        split at h
        · cases h
          exact ⟨_, rfl, rfl, by simp, by simp [SPc.inside, SPc.working], by simp [SPc.inside, SPc.working],
            by simp [hh]⟩
        · cases h
          exact ⟨_, rfl, rfl, by simp, by simp [SPc.inside, SPc.working], by simp [SPc.inside, SPc.working, hh],
            by simp [hh]⟩
    | wait =>
      simp only [SAct.step] at h
      split at h
      · cases h
      · rename_i hh
        split at h
        · cases h
          exact ⟨_, rfl, rfl, by simp, by simp [SPc.inside, SPc.working], by simp [SPc.inside, SPc.working],
            by simp [hh]⟩
        · cases h
          have : op.first.inside = true := by cases op <;> rfl
          exact ⟨_, rfl, rfl, by simp, by simp [SPc.inside, SPc.working], by simp [this, hh], by simp [hh]⟩
    | leave r =>
      cases h
      exact ⟨_, rfl, rfl, by simp [SPc.inside], by simp [SPc.inside, SPc.working], by simp [SPc.inside],
        by simp [SPc.early]⟩
    | answer r =>
      cases h
      exact ⟨_, rfl, rfl, by simp, by simp [SPc.inside, SPc.working], by simp [SPc.inside, SPc.working],
        by simp [SPc.early]⟩
    | leaveExpect i r =>
      cases h
      exact ⟨_, rfl, rfl, by simp [SPc.inside], by simp [SPc.inside, SPc.working], by simp [SPc.inside],
        by simp [SPc.early]⟩
    | leaveDrain es =>
      cases h
      exact ⟨_, rfl, rfl, by simp [SPc.inside], by simp [SPc.inside, SPc.working], by simp [SPc.inside],
        by simp [SPc.early]⟩
    | dropping p es =>
      cases es with
      | nil =>
        cases h
        exact ⟨_, rfl, rfl, by simp, by simp [SPc.inside, SPc.working], by simp [SPc.inside, SPc.working],
          by simp [SPc.early]⟩
      | cons e es =>
        simp only [SAct.step] at h
        repeat' split at h
        all_goals
          cases h
          exact ⟨_, rfl, rfl, by simp, by simp [SPc.inside, SPc.working], by simp [SPc.inside, SPc.working],
            by simp [SPc.early]⟩
    | done o => cases h
    | _ => simp [SPc.working] at hw

/-- An operation cannot make a step only if it is over or waits. -/
theorem SAct.step_none {env : Env V} {id : Nat} {act : SAct V} {t : SState V} (h : act.step env id t = none) :
    act.finished = true ∨ (act.pc.early = true ∧ t.held ≠ none) := by
  obtain ⟨tid, op, pc⟩ := act
  cases pc with
  | done o => exact .inl rfl
  | wait =>
    refine .inr ⟨rfl, ?_⟩
    simp only [SAct.step] at h
    split at h
    · rename_i hh; simp [hh]
    · split at h <;> cases h
  | tryWait =>
    refine .inr ⟨rfl, ?_⟩
    simp only [SAct.step] at h
    split at h
    · rename_i hh; simp [hh]
    · split at h <;> cases h
  | dropping p es =>
    cases es with
    | nil => cases h
    | cons e es =>
      simp only [SAct.step] at h
      repeat' split at h
      all_goals cases h
  | _ => cases h

/-! ## The machine -/

theorem StaticFn.edit_mi (k : Key) (i : Nat) (g : Expectation V → Expectation V) (sf : StaticFn V) :
    (sf.edit k i g).mi = sf.mi := by
  unfold StaticFn.edit; split <;> rfl

theorem SPc.place_inside {pc : SPc V} {i : Nat} (h : pc.place = some i) : pc.inside = true := by
  cases pc <;> simp_all [SPc.place, SPc.inside, SPc.working]

/-- One step, as far as mutexes are concerned. -/
theorem TState.stepAct_shape {env : Env V} {s s' : TState V} {id : Nat} {x : TAct V} {ans : Answer V}
    (hx : s.acts[id]? = some x) (h : s.stepAct env id x ans = some s') :
    ∃ pc, s'.acts = s.acts.set id { x with act := { x.act with pc := pc } } ∧
      (∀ g, g ≠ x.fn → s'.fns g = s.fns g ∧ s'.held g = s.held g) ∧
      (x.act.pc.inside = false → (s'.fns x.fn).store = (s.fns x.fn).store ∧ s'.world = s.world) ∧
      (x.act.pc.inside = true → s'.held x.fn = if pc.inside then s.held x.fn else none) ∧
      (x.act.pc.inside = false → s'.held x.fn = (if pc.inside then some id else s.held x.fn) ∧
        (pc.inside = true → s.held x.fn = none)) ∧
      (x.act.pc.early = true → s.held x.fn ≠ none → x.act.pc = .clear ∧ pc = .tryWait) := by
  unfold TState.stepAct at h
  simp only at h
  split at h
  · cases h
  · rename_i t ht
    cases h
    obtain ⟨pc, h1, -, h3, h4, h5, h6⟩ := SAct.step_shape ht
    have hlen := (List.getElem?_eq_some_iff.1 hx).1
    refine ⟨pc, ?_, ?_, ?_, ?_, ?_, ?_⟩
    · simp only [h1]
      congr 2
      rw [List.getElem?_set_self (by simpa using hlen)]
      rfl
    · intro g hg
      simp [hg]
    · intro hi
      have hp : x.act.pc.place = none := by
        cases hp : x.act.pc.place with
        | none => rfl
        | some i => rw [SPc.place_inside hp] at hi; cases hi
      simp only [hp, if_true] at h3 ⊢
      exact h3 hi
    · intro hi
      simpa using h4 hi
    · intro hi
      simpa using h5 hi
    · intro hi hh
      exact h6 hi hh

theorem TState.stepAct_none {env : Env V} {s : TState V} {id : Nat} {x : TAct V} {ans : Answer V}
    (h : s.stepAct env id x ans = none) :
    x.finished = true ∨ (x.act.pc.early = true ∧ s.held x.fn ≠ none) := by
  unfold TState.stepAct at h
  simp only at h
  split at h
  · rename_i ht
    exact SAct.step_none ht
  · cases h

theorem SPc.inside_unfinished {act : SAct V} (h : act.pc.inside = true) : act.finished = false := by
  obtain ⟨tid, op, pc⟩ := act
  cases pc <;> simp_all [SPc.inside, SPc.working, SAct.finished]

theorem SPc.early_unfinished {act : SAct V} (h : act.pc.early = true) : act.finished = false := by
  obtain ⟨tid, op, pc⟩ := act
  cases pc <;> simp_all [SPc.early, SAct.finished]

theorem SPc.early_inside {pc : SPc V} (h : pc.early = true) : pc.inside = false := by
  cases pc <;> simp_all [SPc.early, SPc.inside, SPc.working]

theorem TAct.user_inside {s : TState V} {x : TAct V} (h : x.user s = true) : x.act.pc.inside = true := by
  obtain ⟨f, tid, op, pc⟩ := x
  cases pc <;> simp_all [TAct.user, SPc.inside, SPc.working]

theorem TAct.user_congr {s s' : TState V} {x : TAct V} (h : (s'.fns x.fn).store = (s.fns x.fn).store) :
    x.user s' = x.user s := by
  unfold TAct.user
  rw [h]

/-- What holds in every reachable state. -/
structure TInv (s : TState V) : Prop where
  /-- whoever is inside holds the mutex -/
  holds : ∀ (id : Nat) (x : TAct V), s.acts[id]? = some x → x.act.pc.inside = true → s.held x.fn = some id
  /-- and only they do -/
  held : ∀ (f id : Nat), s.held f = some id → ∃ x, s.acts[id]? = some x ∧ x.fn = f ∧ x.act.pc.inside = true
  /-- the operations of a thread form a stack -/
  stack : ∀ (i j : Nat) (x y : TAct V), i < j → s.acts[i]? = some x → s.acts[j]? = some y → x.act.tid = y.act.tid →
    x.finished = false → y.finished = false → x.user s = true
  /-- an operation on the method whose user code began it waits -/
  self : ∀ (i j : Nat) (x y : TAct V), i < j → s.acts[i]? = some x → s.acts[j]? = some y → x.act.tid = y.act.tid →
    x.finished = false → y.finished = false → x.fn = y.fn → y.act.pc.early = true

theorem TInv.rest (fns : Nat → StaticFn V) (w : World V) : TInv (TState.rest fns w) := by
  constructor <;> intros <;> simp_all [TState.rest]

theorem TState.innermost_iff {s : TState V} {id tid : Nat} : s.innermost id tid = true ↔
    ∀ (j : Nat) (y : TAct V), id < j → s.acts[j]? = some y → y.finished = false → y.act.tid ≠ tid := by
  unfold TState.innermost
  rw [List.all_eq_true]
  constructor
  · intro h j y hj hy hf e
    have hm : y ∈ s.acts.drop (id + 1) := by
      rw [List.mem_iff_getElem?]
      refine ⟨j - (id + 1), ?_⟩
      rw [List.getElem?_drop, show id + 1 + (j - (id + 1)) = j by omega]
      exact hy
    have := h y hm
    simp [hf, e] at this
  · intro h y hy
    obtain ⟨n, hn⟩ := List.mem_iff_getElem?.1 hy
    rw [List.getElem?_drop] at hn
    have := h (id + 1 + n) y (by omega) hn
    cases hf : y.finished with
    | true => rfl
    | false => simp [this hf]

theorem TState.mayStart_iff {s : TState V} {tid : Nat} : s.mayStart tid = true ↔
    ∀ (i : Nat) (x : TAct V), s.acts[i]? = some x → x.finished = false → x.act.tid = tid → x.user s = true := by
  unfold TState.mayStart
  rw [List.all_eq_true]
  constructor
  · intro h i x hx hf e
    have := h x (List.mem_of_getElem? hx)
    simpa [hf, e] using this
  · intro h x hx
    obtain ⟨n, hn⟩ := List.mem_iff_getElem?.1 hx
    have := h n x hn
    cases hf : x.finished with
    | true => rfl
    | false =>
      by_cases e : x.act.tid = tid
      · simp [this hf e]
      · simp [e]

theorem TInv.start {env : Env V} {s : TState V} (h : TInv s) (tid f : Nat) (op : SOp V) :
    TInv (s.step env (.start tid f op)) := by
  simp only [TState.step]
  split
  · rename_i hm
    rw [TState.mayStart_iff] at hm
    have hst : op.start.inside = false ∧ op.start.early = true := by cases op <;> exact ⟨rfl, rfl⟩
    have hold : ∀ (id : Nat) (x : TAct V), (s.acts ++ [⟨f, ⟨tid, op, op.start⟩⟩])[id]? = some x →
        s.acts[id]? = some x ∨ (id = s.acts.length ∧ x = ⟨f, ⟨tid, op, op.start⟩⟩) := by
      intro id x hx
      rcases Nat.lt_or_ge id s.acts.length with hl | hl
      · rw [List.getElem?_append_left hl] at hx
        exact .inl hx
      · rw [List.getElem?_append_right hl] at hx
        have := (List.getElem?_eq_some_iff.1 hx).1
        simp only [List.length_singleton] at this
        have h0 : id - s.acts.length = 0 := by omega
        rw [h0] at hx
        simp only [List.getElem?_cons_zero, Option.some.injEq] at hx
        exact .inr ⟨by omega, hx.symm⟩
    refine ⟨?_, ?_, ?_, ?_⟩
    · intro id x hx hi
      rcases hold id x hx with hx | ⟨rfl, rfl⟩
      · exact h.holds id x hx hi
      · simp [hst.1] at hi
    · intro g id hg
      obtain ⟨x, hx, k⟩ := h.held g id hg
      refine ⟨x, ?_, k⟩
      simp only
      rw [List.getElem?_append_left (List.getElem?_eq_some_iff.1 hx).1]
      exact hx
    · intro i j x y hij hx hy e fx fy
      have hj : j ≤ s.acts.length := by
        have := (List.getElem?_eq_some_iff.1 hy).1
        simp only [List.length_append, List.length_singleton] at this
        omega
      have hx' : s.acts[i]? = some x := by
        rw [← hx]; simp only; rw [List.getElem?_append_left (by omega)]
      refine (TAct.user_congr (s := s) rfl).trans ?_
      rcases hold j y hy with hy | ⟨rfl, rfl⟩
      · exact h.stack i j x y hij hx' hy e fx fy
      · exact hm i x hx' fx e
    · intro i j x y hij hx hy e fx fy ef
      rcases hold j y hy with hy | ⟨rfl, rfl⟩
      · have hx' : s.acts[i]? = some x := by
          have hj := (List.getElem?_eq_some_iff.1 hy).1
          rw [← hx]; simp only; rw [List.getElem?_append_left (by omega)]
        exact h.self i j x y hij hx' hy e fx fy ef
      · exact hst.2
  · exact h

theorem TInv.step {env : Env V} {s : TState V} (h : TInv s) (id : Nat) (ans : Answer V) :
    TInv (s.step env (.step id ans)) := by
  simp only [TState.step]
  split
  · exact h
  rename_i x hx
  split
  case isFalse => exact h
  rename_i hin
  rw [TState.innermost_iff] at hin
  cases hs : s.stepAct env id x ans with
  | none => exact h
  | some s' =>
    simp only [Option.getD_some]
    obtain ⟨pc, hacts, hother, hst, hins, hout, hearly⟩ := TState.stepAct_shape hx hs
    have hlen := (List.getElem?_eq_some_iff.1 hx).1
    -- the operations afterwards
    have hget : ∀ (j : Nat) (y : TAct V), s'.acts[j]? = some y → (j = id ∧ y = { x with act := { x.act with pc := pc } }) ∨
        (j ≠ id ∧ s.acts[j]? = some y) := by
      intro j y hy
      rw [hacts, List.getElem?_set] at hy
      split at hy
      · rename_i e
        subst e
        exact .inl ⟨rfl, (Option.some.inj hy).symm⟩
      · rename_i e
        exact .inr ⟨fun e' => e e'.symm, hy⟩
    have hkeep : ∀ (j : Nat) (y : TAct V), j ≠ id → s.acts[j]? = some y → s'.acts[j]? = some y := by
      intro j y hj hy
      rw [hacts, List.getElem?_set_ne (fun e => hj e.symm)]
      exact hy
    have hself : s'.acts[id]? = some { x with act := { x.act with pc := pc } } := by
      rw [hacts, List.getElem?_set_self hlen]
    -- others inside keep their mutex
    have hheld : ∀ g j, j ≠ id → s.held g = some j → s'.held g = some j := by
      intro g j hj hg
      by_cases e : g = x.fn
      · subst e
        cases hi : x.act.pc.inside with
        | true =>
          have := h.holds id x hx hi
          rw [hg] at this
          exact absurd (Option.some.inj this) hj
        | false =>
          obtain ⟨h1, h2⟩ := hout hi
          rw [h1]
          split
          · rename_i hp
            rw [h2 hp] at hg
            cases hg
          · exact hg
      · rw [(hother g e).2]; exact hg
    -- and their user code
    have huser : ∀ (j : Nat) (y : TAct V), j ≠ id → s.acts[j]? = some y → y.user s = true → y.user s' = true := by
      intro j y hj hy hu
      rw [TAct.user_congr (s := s)]
      · exact hu
      · by_cases e : y.fn = x.fn
        · cases hi : x.act.pc.inside with
          | true =>
            have h1 := h.holds id x hx hi
            have h2 := h.holds j y hy (TAct.user_inside hu)
            rw [e, h1] at h2
            exact absurd (Option.some.inj h2).symm hj
          | false => rw [e]; exact (hst hi).1
        · rw [(hother _ e).1]
    have hunf : x.finished = false := by
      cases hf : x.finished with
      | false => rfl
      | true =>
        exfalso
        unfold TState.stepAct at hs
        obtain ⟨fn, tid, op, pc'⟩ := x
        cases pc' <;> simp [TAct.finished, SAct.finished] at hf
        simp [SAct.step] at hs
    refine ⟨?_, ?_, ?_, ?_⟩
    · intro j y hy hi
      rcases hget j y hy with ⟨rfl, rfl⟩ | ⟨hj, hy⟩
      · simp only at hi ⊢
        cases hxi : x.act.pc.inside with
        | true =>
          rw [hins hxi, if_pos hi]
          exact h.holds j x hx hxi
        | false =>
          rw [(hout hxi).1, if_pos hi]
      · exact hheld _ _ hj (h.holds j y hy hi)
    · intro g j hg
      by_cases e : g = x.fn
      · subst e
        cases hxi : x.act.pc.inside with
        | true =>
          rw [hins hxi] at hg
          split at hg
          · rename_i hp
            rw [h.holds id x hx hxi] at hg
            cases hg
            exact ⟨_, hself, rfl, hp⟩
          · cases hg
        | false =>
          rw [(hout hxi).1] at hg
          split at hg
          · rename_i hp
            cases hg
            exact ⟨_, hself, rfl, hp⟩
          · obtain ⟨y, hy, e, hi⟩ := h.held _ j hg
            have hj : j ≠ id := by
              rintro rfl
              rw [hx] at hy
              cases hy
              rw [hxi] at hi
              cases hi
            exact ⟨y, hkeep j y hj hy, e, hi⟩
      · rw [(hother g e).2] at hg
        obtain ⟨y, hy, e', hi⟩ := h.held _ j hg
        have hj : j ≠ id := by
          rintro rfl
          rw [hx] at hy
          cases hy
          exact e e'.symm
        exact ⟨y, hkeep j y hj hy, e', hi⟩
    · intro i j y z hij hy hz e fy fz
      rcases hget i y hy with ⟨rfl, rfl⟩ | ⟨hi, hy⟩
      · rcases hget j z hz with ⟨e', -⟩ | ⟨hj, hz⟩
        · omega
        · exact absurd e.symm (hin j z hij hz fz)
      · refine huser i y hi hy ?_
        rcases hget j z hz with ⟨rfl, rfl⟩ | ⟨hj, hz⟩
        · exact h.stack i j y x hij hy hx e fy hunf
        · exact h.stack i j y z hij hy hz e fy fz
    · intro i j y z hij hy hz e fy fz ef
      rcases hget i y hy with ⟨rfl, rfl⟩ | ⟨hi, hy⟩
      · rcases hget j z hz with ⟨e', -⟩ | ⟨hj, hz⟩
        · omega
        · exact absurd e.symm (hin j z hij hz fz)
      · rcases hget j z hz with ⟨rfl, rfl⟩ | ⟨hj, hz⟩
        · have hu := h.stack i j y x hij hy hx e fy hunf
          have hl := h.holds i y hy (TAct.user_inside hu)
          have he := h.self i j y x hij hy hx e fy hunf ef
          have := hearly he (by rw [← ef, hl]; simp)
          simp only [this.2]
          rfl
        · exact h.self i j y z hij hy hz e fy fz ef

theorem TInv.run {env : Env V} : ∀ (sch : List (TSched V)) {s : TState V}, TInv s → TInv (s.run env sch)
  | [], _, h => h
  | .start tid f op :: sch, _, h => TInv.run sch (h.start tid f op)
  | .step id ans :: sch, _, h => TInv.run sch (h.step id ans)

end Mockall
