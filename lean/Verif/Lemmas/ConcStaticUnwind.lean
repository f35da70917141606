import Verif.Props.ConcStatic
import Verif.Spec.Unwind
import Verif.Lemmas.Ret

/-! # Static methods used while threads unwind: the invariant behind C88 -/

namespace Mockall.Props

open Spec.Unwind

variable {V : Type}

theorem mainPart_op (f : Nat) {act : SAct V} (h : act.op ≠ .dropPanicking) : mainPart f act = .op (seqOp f act) := by
  unfold mainPart seqOp
  cases ho : act.op <;> first | rfl | exact absurd ho h

theorem mainPart_congr (f : Nat) {act act' : SAct V} (h1 : act'.op = act.op) (h2 : act'.tid = act.tid) :
    mainPart f act' = mainPart f act := by
  unfold mainPart
  rw [h1, h2]

theorem parts_append (env : Env V) (a b : List (Part V)) (s : Sys V) :
    Part.run env (a ++ b) s = ((Part.run env a s).1 ++ (Part.run env b (Part.run env a s).2).1,
      (Part.run env b (Part.run env a s).2).2) := by
  induction a generalizing s with
  | nil => rfl
  | cons p ps ih => simp [Part.run, ih]

/-- The mutex was acquired, or found poisoned. -/
def entered : SPc V → Bool
  | .clear | .wait | .tryWait => false
  | _ => true

/-- What an effect will report. -/
def foretold (env : Env V) (s : SState V) : Ev → Option (Obs V)
  | .clear _ => some (.unit (.ok ()) false)
  | .main id => predicted env s id

structure PInv (env : Env V) (s0 : Sys V) (f : Nat) (s : SState V) (lin : List Ev) : Prop where
  kind : ∀ act ∈ s.acts, (act.pc = .clear ∨ act.pc = .tryWait → act.op = .dropPanicking) ∧
    (act.pc = .wait → act.op ≠ .dropPanicking)
  nodup : lin.Nodup
  main : ∀ id act, s.acts[id]? = some act → (Ev.main id ∈ lin ↔ entered act.pc = true)
  cleared : ∀ id act, s.acts[id]? = some act → (Ev.clear id ∈ lin ↔ act.op = .dropPanicking ∧ act.pc ≠ .clear)
  range : ∀ x ∈ lin, x.id < s.acts.length
  holder : ∀ id act, s.acts[id]? = some act → (act.pc.inside = true ↔ s.held = some id)
  held : ∀ h, s.held = some h → h < s.acts.length ∧ s.sf.poison = false
  last : ∀ h, s.held = some h → ∃ l, lin = l ++ [.main h] ∧
    ∃ sf w, (Part.run env (program f s l) s0).2 = embed s0 f sf w ∧ sf.poison = false
  pair : lin.Pairwise fun x y => ∀ id, ¬ (x = .main id ∧ y = .clear id)
  obs : (Part.run env (program f s lin) s0).1.map some = lin.map (foretold env s)
  state : (Part.run env (program f s lin) s0).2 = embed s0 f (settled env s).1 (settled env s).2

theorem program_set {f : Nat} {s : SState V} {id : Nat} {act act' : SAct V} (hid : s.acts[id]? = some act)
    (hop : act'.op = act.op) (htid : act'.tid = act.tid) (sf' : StaticFn V) (w' : World V) (held' : Option Nat)
    (lin : List Ev) : program f ⟨sf', w', held', s.acts.set id act'⟩ lin = program f s lin := by
  unfold program
  congr 1
  funext x
  cases x with
  | clear j =>
    simp only [part]
    exact map_set (act' := act') hid (fun _ => Part.clear (V := V) f) rfl j
  | main j =>
    simp only [part]
    exact map_set hid (mainPart f) (mainPart_congr f hop htid) j

/-- A step of an operation that has entered. -/
theorem PInv.upd {env : Env V} {s0 : Sys V} {f : Nat} {s : SState V} {lin : List Ev} (h : PInv env s0 f s lin)
    {id : Nat} {act act' : SAct V} (hid : s.acts[id]? = some act) {sf' : StaticFn V} {w' : World V} {held' : Option Nat}
    (hop : act'.op = act.op) (htid : act'.tid = act.tid) (hb : entered act.pc = true) (hb' : entered act'.pc = true)
    (hmi : sf'.mi = s.sf.mi)
    (hcase : (s.held = some id ∧ ((held' = some id ∧ sf'.poison = false) ∨ held' = none)) ∨
      (s.held ≠ some id ∧ sf' = s.sf ∧ w' = s.world ∧ held' = s.held))
    (hin : act'.pc.inside = true ↔ held' = some id)
    (hpred : predicted env ⟨sf', w', held', s.acts.set id act'⟩ id = predicted env s id)
    (hset : settled env ⟨sf', w', held', s.acts.set id act'⟩ = settled env s) :
    PInv env s0 f ⟨sf', w', held', s.acts.set id act'⟩ lin := by
  have hlt := (List.getElem?_eq_some_iff.mp hid).1
  have hseq := program_set (f := f) hid hop htid sf' w' held'
  have hheld : ∀ j, j ≠ id → (held' = some j ↔ s.held = some j) := by
    intro j hj
    rcases hcase with ⟨h1, ⟨h2, _⟩ | h2⟩ | ⟨_, _, _, h2⟩
    · rw [h1, h2]
    · rw [h1, h2]; simp [Ne.symm hj]
    · rw [h2]
  have hheld' : ∀ j, held' = some j → s.held = some j := by
    intro j hj
    rcases hcase with ⟨h1, ⟨h2, _⟩ | h2⟩ | ⟨_, _, _, h2⟩
    · rw [h1, ← h2, hj]
    · rw [h2] at hj; cases hj
    · rw [← h2, hj]
  have hpc : act'.pc ≠ .clear ∧ act'.pc ≠ .tryWait ∧ act'.pc ≠ .wait := by
    refine ⟨?_, ?_, ?_⟩ <;> (intro e; rw [e] at hb'; cases hb')
  have hpc0 : act.pc ≠ .clear := by
    intro e; rw [e] at hb; cases hb
  refine ⟨?_, h.nodup, ?_, ?_, ?_, ?_, ?_, ?_, h.pair, ?_, ?_⟩
  · intro a ha
    rcases List.mem_or_eq_of_mem_set ha with ha | rfl
    · exact h.kind a ha
    · refine ⟨?_, ?_⟩
      · rintro (e | e)
        · exact absurd e hpc.1
        · exact absurd e hpc.2.1
      · intro e; exact absurd e hpc.2.2
  · intro j a hj
    simp only [List.getElem?_set] at hj
    split at hj
    · rename_i hji
      subst hji
      simp at hj
      obtain ⟨_, rfl⟩ := hj
      rw [h.main _ _ hid, hb, hb']
    · exact h.main j a hj
  · intro j a hj
    simp only [List.getElem?_set] at hj
    split at hj
    · rename_i hji
      subst hji
      simp at hj
      obtain ⟨_, rfl⟩ := hj
      rw [h.cleared _ _ hid, hop]
      exact ⟨fun e => ⟨e.1, hpc.1⟩, fun e => ⟨e.1, hpc0⟩⟩
    · exact h.cleared j a hj
  · intro x hx
    simpa using h.range x hx
  · intro j a hj
    simp only [List.getElem?_set] at hj
    split at hj
    · rename_i hji
      subst hji
      simp at hj
      obtain ⟨_, rfl⟩ := hj
      exact hin
    · rename_i hji
      rw [h.holder j a hj]
      exact (hheld j (Ne.symm hji)).symm
  · intro j hj
    simp only at hj
    by_cases hji : j = id
    · subst hji
      refine ⟨by simpa using hlt, ?_⟩
      rcases hcase with ⟨_, ⟨_, h2⟩ | h2⟩ | ⟨h1, _, _, h2⟩
      · exact h2
      · rw [h2] at hj; simp at hj
      · rw [h2] at hj; exact absurd hj h1
    · have hj' := (hheld j hji).mp hj
      refine ⟨by simpa using (h.held j hj').1, ?_⟩
      rcases hcase with ⟨h1, _⟩ | ⟨_, h2, _, _⟩
      · rw [h1] at hj'; exact absurd (Option.some.inj hj').symm hji
      · rw [h2]; exact (h.held j hj').2
  · intro j hj
    obtain ⟨l, h1, sf, w, h2, h3⟩ := h.last j (hheld' j hj)
    exact ⟨l, h1, sf, w, by rw [hseq]; exact h2, h3⟩
  · rw [hseq, h.obs]
    apply List.map_congr_left
    intro x _
    cases x with
    | clear j => rfl
    | main j =>
      simp only [foretold]
      by_cases hji : j = id
      · subst hji; exact hpred.symm
      · simp only [predicted, List.getElem?_set_ne (Ne.symm hji), hheld j hji, hmi]
        rcases hj : s.acts[j]? with _ | a
        · rfl
        · simp only [Option.map_some]
          by_cases hhj : s.held = some j
          · simp only [hhj, if_true]
            rcases hcase with ⟨h1, _⟩ | ⟨_, h2, h3, _⟩
            · rw [h1] at hhj; exact absurd (Option.some.inj hhj).symm hji
            · rw [h2, h3]
          · simp only [hhj, if_false]
  · rw [hseq, hset]
    exact h.state

/-- An operation acquires the mutex, or finds it poisoned. -/
theorem PInv.enter {env : Env V} {s0 : Sys V} {f : Nat} {s : SState V} {lin : List Ev} (h : PInv env s0 f s lin)
    {id : Nat} {act act' : SAct V} (hid : s.acts[id]? = some act) {held' : Option Nat}
    (hop : act'.op = act.op) (htid : act'.tid = act.tid) (hb : entered act.pc = false) (hnc : act.pc ≠ .clear)
    (hb' : entered act'.pc = true)
    (hfree : s.held = none) (hcase : (held' = some id ∧ s.sf.poison = false) ∨ held' = none)
    (hin : act'.pc.inside = true ↔ held' = some id) {o : Obs V} {x : StaticFn V × World V}
    (hstep : (mainPart f act).step env (embed s0 f s.sf s.world) = (o, embed s0 f x.1 x.2))
    (hpred : predicted env ⟨s.sf, s.world, held', s.acts.set id act'⟩ id = some o)
    (hset : settled env ⟨s.sf, s.world, held', s.acts.set id act'⟩ = x) :
    PInv env s0 f ⟨s.sf, s.world, held', s.acts.set id act'⟩ (lin ++ [.main id]) := by
  have hlt := (List.getElem?_eq_some_iff.mp hid).1
  have hnot : Ev.main id ∉ lin := by rw [h.main id act hid, hb]; simp
  have hseq0 := program_set (f := f) hid hop htid s.sf s.world held'
  have hseq : program f ⟨s.sf, s.world, held', s.acts.set id act'⟩ (lin ++ [.main id]) =
      program f s lin ++ [mainPart f act] := by
    rw [hseq0]
    unfold program
    rw [List.filterMap_append]
    congr 1
    simp [part, hid]
  have hheld : ∀ j, j ≠ id → held' ≠ some j := by
    intro j hj
    rcases hcase with ⟨h2, _⟩ | h2
    · rw [h2]; simp [Ne.symm hj]
    · rw [h2]; simp
  have hpc : act'.pc ≠ .clear ∧ act'.pc ≠ .tryWait ∧ act'.pc ≠ .wait := by
    refine ⟨?_, ?_, ?_⟩ <;> (intro e; rw [e] at hb'; cases hb')
  have hrun := h.state
  have hsettled : settled env s = (s.sf, s.world) := by simp [settled, hfree]
  rw [hsettled] at hrun
  refine ⟨?_, ?_, ?_, ?_, ?_, ?_, ?_, ?_, ?_, ?_, ?_⟩
  · intro a ha
    rcases List.mem_or_eq_of_mem_set ha with ha | rfl
    · exact h.kind a ha
    · refine ⟨?_, ?_⟩
      · rintro (e | e)
        · exact absurd e hpc.1
        · exact absurd e hpc.2.1
      · intro e; exact absurd e hpc.2.2
  · rw [List.nodup_append]
    exact ⟨h.nodup, by simp, by intro a ha b hb hab; simp at hb; subst hb; subst hab; exact hnot ha⟩
  · intro j a hj
    simp only [List.getElem?_set] at hj
    split at hj
    · rename_i hji
      subst hji
      simp at hj
      obtain ⟨_, rfl⟩ := hj
      simp [hb']
    · rename_i hji
      rw [← h.main j a hj]
      simp [Ne.symm hji]
  · intro j a hj
    simp only [List.getElem?_set] at hj
    rw [List.mem_append, List.mem_singleton, or_iff_left (by simp)]
    split at hj
    · rename_i hji
      subst hji
      simp at hj
      obtain ⟨_, rfl⟩ := hj
      rw [h.cleared _ _ hid, hop]
      exact ⟨fun e => ⟨e.1, hpc.1⟩, fun e => ⟨e.1, hnc⟩⟩
    · exact h.cleared j a hj
  · intro j hj
    simp only [List.mem_append, List.mem_singleton] at hj
    rcases hj with hj | rfl
    · simpa using h.range j hj
    · simpa [Ev.id] using hlt
  · intro j a hj
    simp only [List.getElem?_set] at hj
    split at hj
    · rename_i hji
      subst hji
      simp at hj
      obtain ⟨_, rfl⟩ := hj
      exact hin
    · rename_i hji
      rw [h.holder j a hj, hfree]
      simp [hheld j (Ne.symm hji)]
  · intro j hj
    simp only at hj
    by_cases hji : j = id
    · subst hji
      refine ⟨by simpa using hlt, ?_⟩
      rcases hcase with ⟨_, h2⟩ | h2
      · exact h2
      · rw [h2] at hj; simp at hj
    · exact absurd hj (hheld j hji)
  · intro j hj
    simp only at hj
    by_cases hji : j = id
    · subst hji
      refine ⟨lin, rfl, s.sf, s.world, by rw [hseq0]; exact hrun, ?_⟩
      rcases hcase with ⟨_, h2⟩ | h2
      · exact h2
      · rw [h2] at hj; simp at hj
    · exact absurd hj (hheld j hji)
  · rw [List.pairwise_append]
    refine ⟨h.pair, List.pairwise_singleton _ _, ?_⟩
    intro a _ b hb j
    simp only [List.mem_singleton] at hb
    subst hb
    simp
  · rw [hseq, parts_append]
    simp only [List.map_append, h.obs, List.map_cons, List.map_nil]
    congr 1
    · apply List.map_congr_left
      intro y hy
      cases y with
      | clear j => rfl
      | main j =>
        have hji : j ≠ id := fun e => hnot (e ▸ hy)
        simp only [foretold, predicted, List.getElem?_set_ne (Ne.symm hji), hheld j hji, hfree]
        simp
    · simp only [foretold]
      rw [hrun, hpred]
      simp only [Part.run]
      rw [hstep]
      rfl
  · rw [hseq, parts_append, hrun]
    simp only [Part.run]
    rw [hstep, hset]

theorem embed_get (s0 : Sys V) (f : Nat) (hf : f < s0.statics.length) (sf : StaticFn V) (w : World V) :
    (embed s0 f sf w).statics[f]? = some sf := by
  simp [embed, hf]

theorem clear_step (env : Env V) (s0 : Sys V) (f : Nat) (hf : f < s0.statics.length) (sf : StaticFn V) (w : World V) :
    (Part.clear f).step env (embed s0 f sf w) = (.unit (.ok ()) false, embed s0 f { sf with poison := false } w) := by
  unfold Part.step
  simp only [embed_get s0 f hf]
  simp [embed]

/-- A panicking thread clears the poison flag while nobody has the mutex. -/
theorem PInv.clearFree {env : Env V} {s0 : Sys V} {f : Nat} (hf : f < s0.statics.length) {s : SState V} {lin : List Ev}
    (h : PInv env s0 f s lin) {id tid : Nat} (hid : s.acts[id]? = some ⟨tid, .dropPanicking, .clear⟩)
    (hfree : s.held = none) :
    PInv env s0 f ⟨{ s.sf with poison := false }, s.world, s.held, s.acts.set id ⟨tid, .dropPanicking, .tryWait⟩⟩
      (lin ++ [.clear id]) := by
  have hlt := (List.getElem?_eq_some_iff.mp hid).1
  have hmain : Ev.main id ∉ lin := by rw [h.main id _ hid]; simp [entered]
  have hnot : Ev.clear id ∉ lin := by rw [h.cleared id _ hid]; simp
  have hseq0 := program_set (act' := ⟨tid, .dropPanicking, .tryWait⟩) (f := f) hid rfl rfl
    { s.sf with poison := false } s.world s.held
  have hseq : program f ⟨{ s.sf with poison := false }, s.world, s.held, s.acts.set id ⟨tid, .dropPanicking, .tryWait⟩⟩
      (lin ++ [.clear id]) = program f s lin ++ [.clear f] := by
    rw [hseq0]
    unfold program
    rw [List.filterMap_append]
    congr 1
    simp [part, hid]
  have hrun := h.state
  have hsettled : settled env s = (s.sf, s.world) := by simp [settled, hfree]
  rw [hsettled] at hrun
  refine ⟨?_, ?_, ?_, ?_, ?_, ?_, ?_, ?_, ?_, ?_, ?_⟩
  · intro a ha
    rcases List.mem_or_eq_of_mem_set ha with ha | rfl
    · exact h.kind a ha
    · exact ⟨fun _ => rfl, fun e => by cases e⟩
  · rw [List.nodup_append]
    exact ⟨h.nodup, by simp, by intro a ha b hb hab; simp at hb; subst hb; subst hab; exact hnot ha⟩
  · intro j a hj
    simp only [List.getElem?_set] at hj
    rw [List.mem_append, List.mem_singleton, or_iff_left (by simp)]
    split at hj
    · rename_i hji
      subst hji
      simp at hj
      obtain ⟨_, rfl⟩ := hj
      simp [entered, hmain]
    · exact h.main j a hj
  · intro j a hj
    simp only [List.getElem?_set] at hj
    split at hj
    · rename_i hji
      subst hji
      simp at hj
      obtain ⟨_, rfl⟩ := hj
      simp
    · rename_i hji
      rw [← h.cleared j a hj]
      simp [Ne.symm hji]
  · intro j hj
    simp only [List.mem_append, List.mem_singleton] at hj
    rcases hj with hj | rfl
    · simpa using h.range j hj
    · simpa [Ev.id] using hlt
  · intro j a hj
    simp only [List.getElem?_set] at hj
    split at hj
    · rename_i hji
      subst hji
      simp at hj
      obtain ⟨_, rfl⟩ := hj
      simp [hfree, SPc.inside, SPc.working]
    · exact h.holder j a hj
  · intro j hj
    rw [hfree] at hj; cases hj
  · intro j hj
    rw [hfree] at hj; cases hj
  · rw [List.pairwise_append]
    refine ⟨h.pair, List.pairwise_singleton _ _, ?_⟩
    intro a ha b hb j
    simp only [List.mem_singleton] at hb
    subst hb
    rintro ⟨rfl, e⟩
    cases e
    exact hmain ha
  · rw [hseq, parts_append]
    simp only [List.map_append, h.obs, List.map_cons, List.map_nil]
    congr 1
    · apply List.map_congr_left
      intro y hy
      cases y with
      | clear j => rfl
      | main j =>
        have hji : j ≠ id := fun e => hmain (e ▸ hy)
        simp only [foretold, predicted, List.getElem?_set_ne (Ne.symm hji), hfree]
        simp
    · simp only [foretold]
      rw [hrun]
      simp only [Part.run]
      rw [clear_step env s0 f hf]
      rfl
  · rw [hseq, parts_append, hrun]
    simp only [Part.run]
    rw [clear_step env s0 f hf]
    simp [settled, hfree]

/-- A panicking thread clears the poison flag while another thread has the mutex. -/
theorem PInv.clearHeld {env : Env V} {s0 : Sys V} {f : Nat} (hf : f < s0.statics.length) {s : SState V} {l : List Ev}
    {j : Nat} (h : PInv env s0 f s (l ++ [.main j])) {id tid : Nat}
    (hid : s.acts[id]? = some ⟨tid, .dropPanicking, .clear⟩) (hheld : s.held = some j) :
    PInv env s0 f ⟨{ s.sf with poison := false }, s.world, s.held, s.acts.set id ⟨tid, .dropPanicking, .tryWait⟩⟩
      (l ++ [.clear id, .main j]) := by
  have hlt := (List.getElem?_eq_some_iff.mp hid).1
  have hsf : { s.sf with poison := false } = s.sf := by
    have := (h.held j hheld).2
    rw [← this]
  rw [hsf]
  have hji : j ≠ id := by
    rintro rfl
    have := (h.holder j _ hid).mpr hheld
    simp [SPc.inside, SPc.working] at this
  have hmain : Ev.main id ∉ l ++ [.main j] := by rw [h.main id _ hid]; simp [entered]
  have hnot : Ev.clear id ∉ l ++ [.main j] := by rw [h.cleared id _ hid]; simp
  have hnot' : Ev.clear id ∉ l := fun e => hnot (by simp [e])
  have hmem : ∀ x, x ∈ l ++ [.clear id, .main j] ↔ x ∈ l ++ [.main j] ∨ x = .clear id := by
    intro x
    simp only [List.mem_append, List.mem_cons, List.not_mem_nil, or_false]
    constructor
    · rintro (h | h | h)
      · exact .inl (.inl h)
      · exact .inr h
      · exact .inl (.inr h)
    · rintro ((h | h) | h)
      · exact .inl h
      · exact .inr (.inr h)
      · exact .inr (.inl h)
  have hseq0 := program_set (act' := ⟨tid, .dropPanicking, .tryWait⟩) (f := f) hid rfl rfl s.sf s.world s.held
  obtain ⟨l', hl', sf1, w1, hrun1, hp1⟩ := h.last j hheld
  have hll : l' = l := (List.append_inj_left' hl' rfl).symm
  subst hll
  have hnoop : (Part.clear f).step env (embed s0 f sf1 w1) = (.unit (.ok ()) false, embed s0 f sf1 w1) := by
    rw [clear_step env s0 f hf]
    rw [show ({ sf1 with poison := false } : StaticFn V) = sf1 by rw [← hp1]]
  have hseqA : program f s (l' ++ [.clear id]) = program f s l' ++ [.clear f] := by
    unfold program
    rw [List.filterMap_append]
    congr 1
    simp [part, hid]
  have hseqB : program f s (l' ++ [.clear id, .main j]) = (program f s l' ++ [.clear f]) ++ program f s [.main j] := by
    unfold program
    rw [show l' ++ [Ev.clear id, .main j] = (l' ++ [.clear id]) ++ [.main j] by simp, List.filterMap_append]
    congr 1
  have hseqC : program f s (l' ++ [.main j]) = program f s l' ++ program f s [.main j] := by
    unfold program
    rw [List.filterMap_append]
  have hrunA : (Part.run env (program f s l' ++ [.clear f]) s0).2 = embed s0 f sf1 w1 := by
    rw [parts_append, hrun1]
    simp only [Part.run]
    rw [hnoop]
  have hobsA : (Part.run env (program f s l' ++ [.clear f]) s0).1 =
      (Part.run env (program f s l') s0).1 ++ [.unit (.ok ()) false] := by
    rw [parts_append, hrun1]
    simp only [Part.run]
    rw [hnoop]
  have hfore : ∀ x ∈ l' ++ [.main j],
      foretold env ⟨s.sf, s.world, s.held, s.acts.set id ⟨tid, .dropPanicking, .tryWait⟩⟩ x = foretold env s x := by
    intro x hx
    cases x with
    | clear i => rfl
    | main i =>
      have hii : i ≠ id := fun e => hmain (e ▸ hx)
      simp only [foretold, predicted, List.getElem?_set_ne (Ne.symm hii)]
  have hobs := h.obs
  rw [hseqC, parts_append, hrun1] at hobs
  simp only [List.map_append] at hobs
  have hlen : ((Part.run env (program f s l') s0).1.map some).length = (l'.map (foretold env s)).length := by
    have h1 := congrArg List.length hobs
    have h2 : (program f s [.main j]).length = 1 := by
      simp only [program, List.filterMap_cons, List.filterMap_nil, part]
      rw [List.getElem?_eq_getElem (h.held j hheld).1]
      rfl
    have h3 : ∀ (ps : List (Part V)) (x : Sys V), (Part.run env ps x).1.length = ps.length := by
      intro ps
      induction ps with
      | nil => intro x; rfl
      | cons p ps ih => intro x; simp [Part.run, ih]
    simp only [List.length_append, List.length_map, h3, h2, List.length_cons, List.length_nil] at h1 ⊢
    omega
  obtain ⟨hobs1, hobs2⟩ := List.append_inj hobs hlen
  refine ⟨?_, ?_, ?_, ?_, ?_, ?_, ?_, ?_, ?_, ?_, ?_⟩
  · intro a ha
    rcases List.mem_or_eq_of_mem_set ha with ha | rfl
    · exact h.kind a ha
    · exact ⟨fun _ => rfl, fun e => by cases e⟩
  · have := h.nodup
    rw [List.nodup_append] at this ⊢
    refine ⟨this.1, by simp, ?_⟩
    intro a ha b hb hab
    subst hab
    simp only [List.mem_cons, List.not_mem_nil, or_false] at hb
    rcases hb with rfl | rfl
    · exact hnot' ha
    · exact this.2.2 _ ha _ (by simp) rfl
  · intro i a hi
    simp only [List.getElem?_set] at hi
    rw [hmem, or_iff_left (by simp)]
    split at hi
    · rename_i hii
      subst hii
      simp at hi
      obtain ⟨_, rfl⟩ := hi
      rw [h.main _ _ hid]
      simp [entered]
    · exact h.main i a hi
  · intro i a hi
    simp only [List.getElem?_set] at hi
    rw [hmem]
    split at hi
    · rename_i hii
      subst hii
      simp at hi
      obtain ⟨_, rfl⟩ := hi
      simp
    · rename_i hii
      rw [← h.cleared i a hi]
      simp [Ne.symm hii]
  · intro x hx
    rcases (hmem x).mp hx with hx | rfl
    · simpa using h.range x hx
    · simpa [Ev.id] using hlt
  · intro i a hi
    simp only [List.getElem?_set] at hi
    split at hi
    · rename_i hii
      subst hii
      simp at hi
      obtain ⟨_, rfl⟩ := hi
      simp [hheld, hji, SPc.inside, SPc.working]
    · exact h.holder i a hi
  · intro i hi
    simpa using h.held i hi
  · intro i hi
    have : i = j := by simp only [hheld] at hi; exact (Option.some.inj hi).symm
    subst this
    refine ⟨l' ++ [.clear id], by simp, sf1, w1, ?_, hp1⟩
    rw [hseq0, hseqA]
    exact hrunA
  · have := h.pair
    rw [List.pairwise_append] at this ⊢
    refine ⟨this.1, ?_, ?_⟩
    · simp
    · intro a ha b hb i
      simp only [List.mem_cons, List.not_mem_nil, or_false] at hb
      rcases hb with rfl | rfl
      · rintro ⟨rfl, e⟩
        cases e
        exact hmain (by simp [ha])
      · simp
  · rw [hseq0, hseqB, parts_append, hrunA, hobsA]
    simp only [List.map_append, List.append_assoc, List.map_cons, List.map_nil, List.singleton_append]
    rw [hobs1]
    congr 1
    · exact List.map_congr_left fun x hx => (hfore x (by simp [hx])).symm
    · rw [hobs2]
      simp only [List.map_cons, List.map_nil]
      rw [hfore (.main j) (by simp)]
      rfl
  · rw [hseq0, hseqB, parts_append, hrunA]
    have := h.state
    rw [hseqC, parts_append, hrun1] at this
    simp only at this ⊢
    rw [this]
    unfold settled
    simp only [hheld]
    rw [List.getElem?_set_ne (Ne.symm hji)]

/-- A thread begins an operation. -/
theorem PInv.start {env : Env V} {s0 : Sys V} {f : Nat} {s : SState V} {lin : List Ev} (h : PInv env s0 f s lin)
    (tid : Nat) (op : SOp V) : PInv env s0 f { s with acts := s.acts ++ [⟨tid, op, op.start⟩] } lin := by
  have hget : ∀ j, j < s.acts.length → (s.acts ++ [⟨tid, op, op.start⟩])[j]? = s.acts[j]? := fun j hj =>
    List.getElem?_append_left hj
  have hcase : ∀ (j : Nat) (a : SAct V), (s.acts ++ [⟨tid, op, op.start⟩])[j]? = some a →
      s.acts[j]? = some a ∨ (j = s.acts.length ∧ a = ⟨tid, op, op.start⟩) := by
    intro j a hj
    rcases Nat.lt_trichotomy j s.acts.length with hlt | heq | hgt
    · rw [hget j hlt] at hj; exact .inl hj
    · subst heq
      rw [List.getElem?_append_right (Nat.le_refl _)] at hj
      simp at hj
      exact .inr ⟨rfl, hj.symm⟩
    · rw [List.getElem?_eq_none (by simp; omega)] at hj
      simp at hj
  have hseq : ∀ l : List Ev, (∀ x ∈ l, x.id < s.acts.length) →
      program f { s with acts := s.acts ++ [⟨tid, op, op.start⟩] } l = program f s l := by
    intro l hl
    unfold program
    apply filterMap_agree
    intro x hx
    cases x with
    | clear j => simp only [part, hget j (hl _ hx)]
    | main j => simp only [part, hget j (hl _ hx)]
  have hsettled : settled env { s with acts := s.acts ++ [⟨tid, op, op.start⟩] } = settled env s := by
    unfold settled
    rcases hh : s.held with _ | j
    · simp
    · simp only [hget j (h.held j hh).1]
  refine ⟨?_, h.nodup, ?_, ?_, ?_, ?_, ?_, ?_, h.pair, ?_, ?_⟩
  · intro a ha
    rcases List.mem_append.mp ha with ha | ha
    · exact h.kind a ha
    · simp at ha
      subst ha
      cases op <;> simp [SOp.start]
  · intro j a hj
    rcases hcase j a hj with hj | ⟨rfl, rfl⟩
    · exact h.main j a hj
    · constructor
      · intro hj
        exact absurd (h.range _ hj) (Nat.lt_irrefl _)
      · cases op <;> simp [SOp.start, entered]
  · intro j a hj
    rcases hcase j a hj with hj | ⟨rfl, rfl⟩
    · exact h.cleared j a hj
    · constructor
      · intro hj
        exact absurd (h.range _ hj) (Nat.lt_irrefl _)
      · cases op <;> simp [SOp.start]
  · intro x hx
    have := h.range x hx
    simp
    omega
  · intro j a hj
    rcases hcase j a hj with hj | ⟨rfl, rfl⟩
    · exact h.holder j a hj
    · constructor
      · intro hin; cases op <;> simp [SOp.start, SPc.inside, SPc.working] at hin
      · intro hh; exact absurd (h.held _ hh).1 (Nat.lt_irrefl _)
  · intro j hj
    have := h.held j hj
    refine ⟨?_, this.2⟩
    simp
    omega
  · intro j hj
    obtain ⟨l, h1, sf, w, h2, h3⟩ := h.last j hj
    refine ⟨l, h1, sf, w, ?_, h3⟩
    rw [hseq l fun x hx => h.range x (by rw [h1]; simp [hx])]
    exact h2
  · rw [hseq lin h.range, h.obs]
    apply List.map_congr_left
    intro x hx
    cases x with
    | clear j => rfl
    | main j => simp only [foretold, predicted, hget j (h.range _ hx)]
  · rw [hseq lin h.range, hsettled]
    exact h.state

/-- The drop of a `Context` by a panicking thread that finds the mutex free and not poisoned. -/
theorem drop_step (env : Env V) (s0 : Sys V) (f : Nat) (hf : f < s0.statics.length) (act : SAct V)
    (hd : act.op = .dropPanicking) (sf : StaticFn V) (w : World V) (hp : sf.poison = false) :
    (mainPart f act).step env (embed s0 f sf w) =
      let o := SAct.finish env { act with pc := .drain } sf w
      (o.1, embed s0 f o.2.1 o.2.2) := by
  obtain ⟨tid, op, pc⟩ := act
  simp only at hd
  subst hd
  have hget := embed_get s0 f hf sf w
  simp only [mainPart, Part.step, hget, hp, Sys.step, StaticFn.dropContext, StaticFn.checkpoint, SAct.finish, SOp.panicking]
  simp only [embed, List.set_set, Bool.false_eq_true, if_false]
  rfl

/-- The drop of a `Context` by a panicking thread that finds the mutex poisoned again. -/
theorem drop_poisoned (env : Env V) (s0 : Sys V) (f : Nat) (hf : f < s0.statics.length) (act : SAct V)
    (hd : act.op = .dropPanicking) (sf : StaticFn V) (w : World V) (hp : sf.poison = true) :
    (mainPart f act).step env (embed s0 f sf w) = (.unit (.ok ()) false, embed s0 f sf w) := by
  obtain ⟨tid, op, pc⟩ := act
  simp only at hd
  subst hd
  simp only [mainPart, Part.step, embed_get s0 f hf sf w, hp, if_true]

/-- How the order of effects changes in a step of operation number `id`. -/
inductive Grow (s : SState V) (id : Nat) (lin : List Ev) : List Ev → Prop
  | same : Grow s id lin lin
  | append (x : Ev) : x.id = id → Grow s id lin (lin ++ [x])
  | insert (l : List Ev) (x : Ev) (h : Nat) : x.id = id → lin = l ++ [.main h] → s.held = some h →
      Grow s id lin (l ++ [x, .main h])

theorem PInv.stepOne {env : Env V} {s0 : Sys V} {f : Nat} (hf : f < s0.statics.length) {s : SState V} {lin : List Ev}
    (h : PInv env s0 f s lin) {id : Nat} {act : SAct V} (hid : s.acts[id]? = some act) {s' : SState V}
    (hstep : act.step env id s = some s') : ∃ lin', PInv env s0 f s' lin' ∧ Grow s id lin lin' := by
  have hlt := (List.getElem?_eq_some_iff.mp hid).1
  have hkind := h.kind act (List.mem_of_getElem? hid)
  have hhold := h.holder id act hid
  -- a step of an operation that has entered
  have hgo : ∀ (sf' : StaticFn V) (w' : World V) (held' : Option Nat) (pc' : SPc V),
      act.step env id s = some ⟨sf', w', held', s.acts.set id { act with pc := pc' }⟩ →
      PInv env s0 f ⟨sf', w', held', s.acts.set id { act with pc := pc' }⟩ lin →
      ∃ lin', PInv env s0 f s' lin' ∧ Grow s id lin lin' := by
    intro sf' w' held' pc' hs hinv
    rw [hstep] at hs
    cases hs
    exact ⟨lin, hinv, .same⟩
  have hwork : act.pc.working = true → ∃ lin', PInv env s0 f s' lin' ∧ Grow s id lin lin' := by
    intro hw
    have hin : act.pc.inside = true := by
      obtain ⟨tid, op, pc⟩ := act
      cases pc <;> first | rfl | simp [SPc.working] at hw
    have hheld := hhold.mp hin
    have hb : entered act.pc = true := by
      obtain ⟨tid, op, pc⟩ := act
      cases pc <;> first | rfl | simp [SPc.working] at hw
    have hin' := SAct.inner_inside env act s.sf s.world hw
    have hfin := SAct.inner_finish env act s.sf s.world hw
    simp only at hfin
    refine hgo (act.inner env s.sf s.world).2.1 (act.inner env s.sf s.world).2.2 (some id)
      (act.inner env s.sf s.world).1 ?_ ?_
    · obtain ⟨tid, op, pc⟩ := act
      cases pc <;> simp only [SPc.working, Bool.false_eq_true] at hw <;> simp only [SAct.step, hheld]
    · refine h.upd hid rfl rfl hb ?_ (SAct.inner_mi _ _ _ _)
        (.inl ⟨hheld, .inl ⟨rfl, by rw [SAct.inner_poison]; exact (h.held id hheld).2⟩⟩) ?_ ?_ ?_
      · simp only
        generalize (act.inner env s.sf s.world).1 = pc at hin'
        cases pc <;> first | rfl | simp [SPc.inside, SPc.working] at hin'
      · simp [hin']
      · rw [predicted_set hid, hfin]
        simp [predicted, hid, hheld]
      · rw [settled_set hid, hfin]
        simp [settled, hheld, hid]
  have hout : entered act.pc = true → act.pc.inside = false → ∀ pc' : SPc V,
      act.step env id s = some { s with acts := s.acts.set id { act with pc := pc' } } →
      entered pc' = true → pc'.inside = false →
      SAct.outcome env s.sf.mi { act with pc := pc' } = SAct.outcome env s.sf.mi act →
      ∃ lin', PInv env s0 f s' lin' ∧ Grow s id lin lin' := by
    intro hb hin pc' hs hb' hin' ho
    have hheld : s.held ≠ some id := by
      intro e
      have := hhold.mpr e
      rw [hin] at this
      simp at this
    refine hgo s.sf s.world s.held pc' hs ?_
    refine h.upd hid rfl rfl hb hb' rfl (.inr ⟨hheld, rfl, rfl, rfl⟩) ?_ ?_ ?_
    · simp [hin', hheld]
    · rw [predicted_set hid]
      simp [predicted, hid, hheld, ho]
    · unfold settled
      simp only
      rcases hh : s.held with _ | j
      · rfl
      · simp only
        rw [List.getElem?_set_ne (by intro e; subst e; exact hheld hh)]
  obtain ⟨tid, op, pc⟩ := act
  cases pc with
  | clear =>
    have ho : op = .dropPanicking := hkind.1 (.inl rfl)
    subst ho
    cases hstep
    rcases hheld : s.held with _ | j
    · have := h.clearFree hf hid hheld
      rw [hheld] at this
      exact ⟨_, this, .append _ rfl⟩
    · obtain ⟨l, hl, _⟩ := h.last j hheld
      subst hl
      have := h.clearHeld hf hid hheld
      rw [hheld] at this
      exact ⟨_, this, .insert l _ j rfl rfl hheld⟩
  | tryWait =>
    have ho : op = .dropPanicking := hkind.1 (.inr rfl)
    subst ho
    rcases hheld : s.held with _ | j
    · by_cases hp : s.sf.poison = true
      · have hs : SAct.step env id ⟨tid, .dropPanicking, .tryWait⟩ s =
            some ⟨s.sf, s.world, s.held, s.acts.set id ⟨tid, .dropPanicking, .done (.unit (.ok ()) false)⟩⟩ := by
          simp [SAct.step, hheld, hp]
        rw [hstep] at hs
        cases hs
        refine ⟨lin ++ [.main id], ?_, .append _ rfl⟩
        refine h.enter (x := (s.sf, s.world)) hid rfl rfl rfl (by simp) rfl hheld (.inr hheld) ?_
          (drop_poisoned env s0 f hf ⟨tid, .dropPanicking, .tryWait⟩ rfl s.sf s.world hp) ?_ ?_
        · simp [hheld, SPc.inside, SPc.working]
        · rw [predicted_set hid]
          simp [hheld, SAct.outcome]
        · simp [settled, hheld]
      · have hp : s.sf.poison = false := by simpa using hp
        have hs : SAct.step env id ⟨tid, .dropPanicking, .tryWait⟩ s =
            some ⟨s.sf, s.world, some id, s.acts.set id ⟨tid, .dropPanicking, .drain⟩⟩ := by
          simp [SAct.step, hheld, hp]
        rw [hstep] at hs
        cases hs
        refine ⟨lin ++ [.main id], ?_, .append _ rfl⟩
        refine h.enter hid rfl rfl rfl (by simp) rfl hheld (.inl ⟨rfl, hp⟩) ?_
          (drop_step env s0 f hf ⟨tid, .dropPanicking, .tryWait⟩ rfl s.sf s.world hp) ?_ ?_
        · simp [SPc.inside, SPc.working]
        · rw [predicted_set hid]
          simp
        · rw [settled_set hid]
    · simp [SAct.step, hheld] at hstep
  | wait =>
    have hne : op ≠ .dropPanicking := hkind.2 rfl
    rcases hheld : s.held with _ | j
    · by_cases hp : s.sf.poison = true
      · have hs : SAct.step env id ⟨tid, op, .wait⟩ s =
            some ⟨s.sf, s.world, s.held, s.acts.set id ⟨tid, op, .done op.poisoned⟩⟩ := by
          simp [SAct.step, hheld, hp]
        rw [hstep] at hs
        cases hs
        refine ⟨lin ++ [.main id], ?_, .append _ rfl⟩
        refine h.enter (x := (s.sf, s.world)) hid rfl rfl rfl (by simp) rfl hheld (.inr hheld) ?_
          (by rw [mainPart_op f hne]; exact seq_poisoned env s0 f hf ⟨tid, op, .wait⟩ hne s.sf s.world hp) ?_ ?_
        · simp [hheld, SPc.inside, SPc.working]
        · rw [predicted_set hid]
          simp [hheld, SAct.outcome]
        · simp [settled, hheld]
      · have hp : s.sf.poison = false := by simpa using hp
        have hs : SAct.step env id ⟨tid, op, .wait⟩ s =
            some ⟨s.sf, s.world, some id, s.acts.set id ⟨tid, op, op.first⟩⟩ := by
          simp [SAct.step, hheld, hp]
        have hfirst : op.first.inside = true ∧ entered op.first = true := by
          cases op <;> simp [SOp.first, SPc.inside, SPc.working, entered]
        rw [hstep] at hs
        cases hs
        refine ⟨lin ++ [.main id], ?_, .append _ rfl⟩
        refine h.enter hid rfl rfl rfl (by simp) hfirst.2 hheld (.inl ⟨rfl, hp⟩) ?_
          (by rw [mainPart_op f hne]; exact seq_step env s0 f hf ⟨tid, op, .wait⟩ hne s.sf s.world hp) ?_ ?_
        · simp [hfirst.1]
        · rw [predicted_set hid]
          simp
        · rw [settled_set hid]
    · simp [SAct.step, hheld] at hstep
  | scan i => exact hwork rfl
  | check i => exact hwork rfl
  | inc i => exact hwork rfl
  | verify i => exact hwork rfl
  | sat i => exact hwork rfl
  | satisfy i => exact hwork rfl
  | ret i => exact hwork rfl
  | push => exact hwork rfl
  | build i bs => exact hwork rfl
  | drain => exact hwork rfl
  | leave r =>
    have hheld := hhold.mp rfl
    refine hgo { s.sf with poison := panicked r } s.world none (.answer r) rfl ?_
    refine h.upd hid rfl rfl rfl rfl rfl (.inl ⟨hheld, .inr rfl⟩) ?_ ?_ ?_
    · simp [SPc.inside, SPc.working]
    · rw [predicted_set hid]
      simp [predicted, hid, hheld, SAct.outcome, SAct.finish, SAct.rest]
    · simp [settled, hheld, hid, SAct.finish, SAct.rest]
  | leaveExpect i r =>
    have hheld := hhold.mp rfl
    refine hgo { s.sf with poison := panicked r } { s.world with made := s.world.made ++
        [(((s.sf.store.vec op.key)[i]?).map (·.chain)).getD []] } none (.done (.unit r false)) rfl ?_
    refine h.upd hid rfl rfl rfl rfl rfl (.inl ⟨hheld, .inr rfl⟩) ?_ ?_ ?_
    · simp [SPc.inside, SPc.working]
    · rw [predicted_set hid]
      simp [predicted, hid, hheld, SAct.outcome, SAct.finish]
    · simp [settled, hheld, hid, SAct.finish]
  | leaveDrain es =>
    have hheld := hhold.mp rfl
    refine hgo s.sf s.world none (.dropping none es) rfl ?_
    refine h.upd hid rfl rfl rfl rfl rfl (.inl ⟨hheld, .inr rfl⟩) ?_ ?_ ?_
    · simp [SPc.inside, SPc.working]
    · rw [predicted_set hid]
      simp [predicted, hid, hheld, SAct.outcome, SAct.finish]
    · simp [settled, hheld, hid, SAct.finish]
  | answer r => exact hout rfl rfl _ rfl rfl rfl rfl
  | done o => cases hstep
  | dropping p es =>
    have hdt : ∀ e : Expectation V, e.drop true s.sf.mi.base = .ok () := fun e => by simp [Expectation.drop, Common.drop]
    cases es with
    | nil =>
      refine hout rfl rfl _ rfl rfl rfl ?_
      cases p <;> rfl
    | cons e es =>
      cases p with
      | none =>
        rcases hpan : op.panicking with _ | _
        · rcases hd : e.drop false s.sf.mi.base with q | _
          · refine hout rfl rfl (.dropping (some q) es) (by simp [SAct.step, hpan, hd]) rfl rfl ?_
            simp [SAct.outcome, dropAll, hd, hpan, dropAll_panicking]
          · refine hout rfl rfl (.dropping none es) (by simp [SAct.step, hpan, hd]) rfl rfl ?_
            simp [SAct.outcome, dropAll, hd, hpan]
        · refine hout rfl rfl (.dropping none es) (by simp [SAct.step, hpan, hdt]) rfl rfl ?_
          simp [SAct.outcome, dropAll, hdt, hpan]
      | some q =>
        exact hout rfl rfl (.dropping (some q) es) (by simp [SAct.step, hdt]) rfl rfl rfl

/-! ## The order of the effects -/

theorem before_append {l : List Ev} {x y : Ev} (h : Before l x y) (r : List Ev) : Before (l ++ r) x y := by
  obtain ⟨a, b, c, rfl⟩ := h
  exact ⟨a, b, c ++ r, by simp⟩

theorem before_of_mem {l r : List Ev} {x y : Ev} (hx : x ∈ l) (hy : y ∈ r) : Before (l ++ r) x y := by
  obtain ⟨a, b, rfl⟩ := List.append_of_mem hx
  obtain ⟨c, d, rfl⟩ := List.append_of_mem hy
  exact ⟨a, b ++ c, d, by simp⟩

/-- Every effect of operation `a` comes before every effect of an operation with number `n` or more. -/
def EffectsFirst (a n : Nat) (lin : List Ev) : Prop := ∀ x ∈ lin, ∀ y ∈ lin, x.id = a → n ≤ y.id → Before lin x y

theorem before_of_snoc {l : List Ev} {x y z : Ev} (h : Before (l ++ [z]) x y) :
    Before l x y ∨ (x ∈ l ∧ y = z) := by
  obtain ⟨a, b, c, h⟩ := h
  rcases List.eq_nil_or_concat c with rfl | ⟨c', w, rfl⟩
  · have := List.append_inj' (s₁ := l) (s₂ := a ++ x :: b) h rfl
    simp only [List.cons.injEq, and_true] at this
    exact .inr ⟨by rw [this.1]; simp, this.2.symm⟩
  · have h' : l ++ [z] = (a ++ x :: b ++ y :: c') ++ [w] := by rw [h]; simp
    have := List.append_inj' h' rfl
    exact .inl ⟨a, b, c', this.1⟩

theorem EffectsFirst.grow {s : SState V} {a n id : Nat} {lin lin' : List Ev} (h : EffectsFirst a n lin) (hg : Grow s id lin lin')
    (hid : id ≠ a) (hheld : s.held ≠ some a) : EffectsFirst a n lin' := by
  cases hg with
  | same => exact h
  | append z hz =>
    intro x hx y hy hxa hyn
    rcases List.mem_append.mp hx with hx | hx
    · rcases List.mem_append.mp hy with hy | hy
      · exact before_append (h x hx y hy hxa hyn) _
      · exact before_of_mem hx hy
    · simp only [List.mem_singleton] at hx
      subst hx
      exact absurd (hz.symm.trans hxa) hid
  | insert l z j hz hl hj =>
    subst hl
    have hja : j ≠ a := fun e => hheld (e ▸ hj)
    intro x hx y hy hxa hyn
    have hxl : x ∈ l := by
      simp only [List.mem_append, List.mem_cons, List.not_mem_nil, or_false] at hx
      rcases hx with hx | rfl | rfl
      · exact hx
      · exact absurd (hz.symm.trans hxa) hid
      · exact absurd hxa hja
    simp only [List.mem_append] at hy
    rcases hy with hy | hy
    · rcases before_of_snoc (h x (by simp [hxl]) y (by simp [hy]) hxa hyn) with hb | ⟨_, rfl⟩
      · exact before_append hb _
      · exact before_of_mem hxl (by simp)
    · exact before_of_mem hxl hy

theorem before_or {l : List Ev} {x y : Ev} (hx : x ∈ l) (hy : y ∈ l) (hne : x ≠ y) : Before l x y ∨ Before l y x := by
  obtain ⟨a, b, rfl⟩ := List.append_of_mem hx
  simp only [List.mem_append, List.mem_cons] at hy
  rcases hy with hy | rfl | hy
  · exact .inr (before_of_mem hy (by simp))
  · exact absurd rfl hne
  · refine .inl ?_
    have := before_of_mem (l := a ++ [x]) (r := b) (x := x) (y := y) (by simp) hy
    simpa using this

theorem pairwise_before {R : Ev → Ev → Prop} {l : List Ev} (h : l.Pairwise R) {x y : Ev} (hb : Before l x y) : R x y := by
  obtain ⟨a, b, c, rfl⟩ := hb
  rw [List.pairwise_append] at h
  exact h.2.2 x (by simp) y (by simp)

/-- An operation that is over stays as it is. -/
theorem step_keeps_done (env : Env V) (s : SState V) (x : SSched V) {a : Nat} {act : SAct V} (ha : s.acts[a]? = some act)
    (hfin : act.finished = true) : (s.step env x).acts[a]? = some act := by
  have hlt := (List.getElem?_eq_some_iff.mp ha).1
  cases x with
  | start tid op =>
    simp only [SState.step]
    split
    · simp only [List.getElem?_append_left hlt, ha]
    · exact ha
  | step id =>
    simp only [SState.step]
    rcases hid : s.acts[id]? with _ | b
    · exact ha
    · simp only
      by_cases hia : id = a
      · subst hia
        rw [ha] at hid
        cases hid
        obtain ⟨tid, op, pc⟩ := act
        cases pc <;> simp [SAct.finished] at hfin
        simpa [SAct.step] using ha
      · obtain ⟨tid, op, pc⟩ := b
        have key : ∀ s', SAct.step env id ⟨tid, op, pc⟩ s = some s' → s'.acts[a]? = some act := by
          intro s' hs
          have : ∃ b, s'.acts = s.acts.set id b := by
            revert hs
            simp only [SAct.step]
            repeat' split
            all_goals first
              | (intro hs; cases hs; exact ⟨_, rfl⟩)
              | (intro hs; cases hs)
          obtain ⟨b, hb⟩ := this
          rw [hb, List.getElem?_set_ne hia]
          exact ha
        rcases hs : SAct.step env id ⟨tid, op, pc⟩ s with _ | s'
        · exact ha
        · exact key s' hs

theorem run_keeps_done (env : Env V) (sch : List (SSched V)) {s : SState V} {a : Nat} {act : SAct V}
    (ha : s.acts[a]? = some act) (hfin : act.finished = true) : (s.run env sch).acts[a]? = some act := by
  induction sch generalizing s with
  | nil => exact ha
  | cons x sch ih => exact ih (step_keeps_done env s x ha hfin)

theorem PInv.init {env : Env V} {s0 : Sys V} {f : Nat} {sf : StaticFn V} (hf : s0.statics[f]? = some sf) :
    PInv env s0 f (atRest sf s0.world) [] := by
  refine ⟨by simp [atRest], by simp, by simp [atRest], by simp [atRest], by simp, by simp [atRest], by simp [atRest],
    by simp [atRest], by simp, rfl, ?_⟩
  simp only [program, List.filterMap_nil, Part.run, settled, atRest]
  exact (embed_self hf).symm

theorem SState.run_snoc (env : Env V) (sch : List (SSched V)) (x : SSched V) (s : SState V) :
    s.run env (sch ++ [x]) = (s.run env sch).step env x := by
  simp [SState.run]

theorem pinv_run {env : Env V} {s0 : Sys V} {f : Nat} {sf : StaticFn V} (hf : s0.statics[f]? = some sf)
    (sch : List (SSched V)) :
    ∃ lin, PInv env s0 f ((atRest sf s0.world).run env sch) lin ∧
      ∀ (pre post : List (SSched V)) (a : Nat) (act : SAct V), sch = pre ++ post →
        ((atRest sf s0.world).run env pre).acts[a]? = some act → act.finished = true →
        EffectsFirst a ((atRest sf s0.world).run env pre).acts.length lin := by
  have hlt := (List.getElem?_eq_some_iff.mp hf).1
  induction sch using snoc_induct with
  | nil =>
    refine ⟨[], PInv.init hf, ?_⟩
    intro pre post a act _ _ _ x hx
    cases hx
  | snoc sch x ih =>
    obtain ⟨lin, hinv, hord⟩ := ih
    rw [SState.run_snoc]
    have hmain : ∃ lin', PInv env s0 f (((atRest sf s0.world).run env sch).step env x) lin' ∧
        (lin' = lin ∨ ∃ id act, ((atRest sf s0.world).run env sch).acts[id]? = some act ∧ act.finished = false ∧
          Grow ((atRest sf s0.world).run env sch) id lin lin') := by
      generalize (atRest sf s0.world).run env sch = s at hinv ⊢
      cases x with
      | start tid op =>
        refine ⟨lin, ?_, .inl rfl⟩
        simp only [SState.step]
        split
        · exact hinv.start tid op
        · exact hinv
      | step id =>
        simp only [SState.step]
        rcases hid : s.acts[id]? with _ | act
        · exact ⟨lin, hinv, .inl rfl⟩
        · rcases hs : act.step env id s with _ | s'
          · simp only [hs]
            exact ⟨lin, hinv, .inl rfl⟩
          · obtain ⟨lin', h1, h2⟩ := hinv.stepOne hlt hid hs
            simp only [hs]
            refine ⟨lin', h1, .inr ⟨id, act, hid, ?_, h2⟩⟩
            obtain ⟨tid, op, pc⟩ := act
            cases pc <;> first | rfl | (simp [SAct.step] at hs)
    obtain ⟨lin', hinv', hgrow⟩ := hmain
    refine ⟨lin', hinv', ?_⟩
    intro pre post a act hsch ha hfin
    rcases List.eq_nil_or_concat post with rfl | ⟨post', z, rfl⟩
    · simp only [List.append_nil] at hsch
      subst hsch
      intro u hu y hy _ hyn
      have := hinv'.range y hy
      rw [SState.run_snoc] at hyn
      omega
    · have hsch' : sch ++ [x] = (pre ++ post') ++ [z] := by rw [hsch]; simp
      have hsch1 : sch = pre ++ post' := (List.append_inj' hsch' rfl).1
      have hkeep := hord pre post' a act hsch1 ha hfin
      rcases hgrow with rfl | ⟨id, act', hid, hfin', hg⟩
      · exact hkeep
      · have hnow : ((atRest sf s0.world).run env sch).acts[a]? = some act := by
          rw [hsch1]
          have := run_keeps_done env post' ha hfin
          simpa [SState.run] using this
        refine hkeep.grow hg ?_ ?_
        · rintro rfl
          rw [hnow] at hid
          cases hid
          rw [hfin] at hfin'
          cases hfin'
        · intro e
          have hin := (hinv.holder a act hnow).mpr e
          obtain ⟨tid, op, pc⟩ := act
          cases pc <;> simp [SPc.inside, SPc.working, SAct.finished] at hin hfin

/-! ## Drops by panicking threads do not panic -/

/-- Where the drop of a `Context` by a panicking thread can be. -/
def quiet : SPc V → Prop
  | .clear | .tryWait | .drain | .leaveDrain _ | .dropping none _ => True
  | .done o => o = .unit (.ok ()) false
  | _ => False

theorem quiet_run (env : Env V) (sch : List (SSched V)) {s : SState V}
    (h : ∀ act ∈ s.acts, act.op = .dropPanicking → quiet act.pc) :
    ∀ act ∈ (s.run env sch).acts, act.op = .dropPanicking → quiet act.pc := by
  induction sch generalizing s with
  | nil => exact h
  | cons x sch ih =>
    refine ih (s := s.step env x) ?_
    cases x with
    | start tid op =>
      simp only [SState.step]
      split
      · intro act hact hop
        rcases List.mem_append.mp hact with hact | hact
        · exact h act hact hop
        · simp only [List.mem_singleton] at hact
          subst hact
          simp only at hop
          subst hop
          trivial
      · exact h
    | step id =>
      simp only [SState.step]
      rcases hid : s.acts[id]? with _ | b
      · exact h
      · simp only
        rcases hs : b.step env id s with _ | s'
        · exact h
        · simp only [Option.getD_some]
          have key : ∃ pc', s'.acts = s.acts.set id { b with pc := pc' } ∧ (b.op = .dropPanicking → quiet pc') := by
            have hb := h b (List.mem_of_getElem? hid)
            obtain ⟨tid, op, pc⟩ := b
            by_cases hop : op = .dropPanicking
            · subst hop
              have hb := hb rfl
              have hdt : ∀ e : Expectation V, e.drop true s.sf.mi.base = .ok () := fun e => by
                simp [Expectation.drop, Common.drop]
              cases pc with
              | dropping p es =>
                cases p with
                | some q => exact absurd hb (fun e => e)
                | none =>
                  cases es with
                  | nil => cases hs; exact ⟨_, rfl, fun _ => rfl⟩
                  | cons e es =>
                    simp only [SAct.step, SOp.panicking, Bool.true_or, hdt, Option.some.injEq] at hs
                    subst hs
                    exact ⟨_, rfl, fun _ => trivial⟩
              | clear => cases hs; exact ⟨_, rfl, fun _ => trivial⟩
              | tryWait =>
                revert hs
                simp only [SAct.step]
                repeat' split
                all_goals
                  intro hs
                  cases hs
                · exact ⟨_, rfl, fun _ => rfl⟩
                · exact ⟨_, rfl, fun _ => trivial⟩
              | drain => cases hs; exact ⟨_, rfl, fun _ => trivial⟩
              | leaveDrain es => cases hs; exact ⟨_, rfl, fun _ => trivial⟩
              | done o => cases hs
              | _ => exact absurd hb (fun e => e)
            · have : ∃ pc', s'.acts = s.acts.set id ⟨tid, op, pc'⟩ := by
                revert hs
                simp only [SAct.step]
                repeat' split
                all_goals first
                  | (intro hs; cases hs; exact ⟨_, rfl⟩)
                  | (intro hs; cases hs)
              obtain ⟨pc', hpc⟩ := this
              exact ⟨pc', hpc, fun e => absurd e hop⟩
          obtain ⟨pc', hacts, hq⟩ := key
          intro act hact hop
          rw [hacts] at hact
          rcases List.mem_or_eq_of_mem_set hact with hact | rfl
          · exact h act hact hop
          · exact hq hop

end Mockall.Props
