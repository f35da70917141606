import Verif.Lemmas.ConcStatic
import Verif.Lemmas.ConcInv

/-! # C40: concurrent use of a static method -/

namespace Mockall.Props

variable {V : Type}

/-- The same operation in a sequential program. -/
def seqOp (f : Nat) (act : SAct V) : Op V :=
  match act.op with
  | .call k args => .scall f k act.tid args
  | .expect k bs => .sexpect f k bs
  | .checkpoint => .scheckpoint f
  | .dropContext => .sdrop f false
  | .dropPanicking => .sdrop f true

/-- The state of a program in which only method `f` and the world have changed. -/
def embed (s0 : Sys V) (f : Nat) (sf : StaticFn V) (w : World V) : Sys V :=
  { s0 with statics := s0.statics.set f sf, world := w }

theorem seq_step (env : Env V) (s0 : Sys V) (f : Nat) (hf : f < s0.statics.length) (act : SAct V)
    (hd : act.op ≠ .dropPanicking) (sf : StaticFn V) (w : World V) (hp : sf.poison = false) :
    (embed s0 f sf w).step env (seqOp f act) =
      let o := SAct.finish env { act with pc := act.op.first } sf w
      (o.1, embed s0 f o.2.1 o.2.2) := by
  obtain ⟨tid, op, pc⟩ := act
  have hget : (embed s0 f sf w).statics[f]? = some sf := by simp [embed, hf]
  cases op with
  | call k args =>
    simp only [seqOp, Sys.step, hget, StaticFn.call, hp, SAct.finish, SAct.rest, SOp.first, SOp.key, SOp.args,
      List.drop_zero, List.take_zero, List.nil_append, Store.call_vec, Env.cx]
    simp only [embed, List.set_set, Bool.false_eq_true, if_false, panicked]
    generalize callScan _ _ _ _ _ _ = o
    rcases o with ⟨_ | _, _, _⟩ <;> rfl
  | expect k bs =>
    simp only [seqOp, Sys.step, hget, StaticFn.expect, hp, SAct.finish, SOp.first, SOp.key, SOp.chain]
    simp only [embed, List.set_set, Bool.false_eq_true, if_false, panicked]
    generalize Store.expect _ _ _ _ _ _ = o
    rcases o with ⟨_ | _, _, _⟩ <;> rfl
  | checkpoint =>
    simp only [seqOp, Sys.step, hget, StaticFn.checkpoint, hp, SAct.finish, SOp.first]
    simp only [embed, List.set_set, Bool.false_eq_true, if_false]
    rfl
  | dropContext =>
    simp only [seqOp, Sys.step, hget, StaticFn.dropContext, StaticFn.checkpoint, hp, SAct.finish, SOp.first]
    simp only [embed, List.set_set, Bool.false_eq_true, if_false]
    rfl
  | dropPanicking => exact absurd rfl hd

theorem seq_poisoned (env : Env V) (s0 : Sys V) (f : Nat) (hf : f < s0.statics.length) (act : SAct V)
    (hd : act.op ≠ .dropPanicking) (sf : StaticFn V) (w : World V) (hp : sf.poison = true) :
    (embed s0 f sf w).step env (seqOp f act) = (act.op.poisoned, embed s0 f sf w) := by
  obtain ⟨tid, op, pc⟩ := act
  have hget : (embed s0 f sf w).statics[f]? = some sf := by simp [embed, hf]
  cases op with
  | dropPanicking => exact absurd rfl hd
  | _ =>
    simp only [seqOp, Sys.step, hget, StaticFn.call, StaticFn.expect, StaticFn.checkpoint, StaticFn.dropContext, hp]
    simp only [embed, List.set_set, if_true]
    rfl

/-- What an operation that has released the mutex will report. -/
def SAct.outcome (env : Env V) (mi : MethodInfo V) (act : SAct V) : Obs V :=
  match act.pc with
  | .answer r => .value (expectMatch (env.cx act.tid) (mi.fn act.op.key) act.op.args r)
  | .dropping none es => .unit (dropAll act.op.panicking mi.base es).1 (dropAll act.op.panicking mi.base es).2
  | .dropping (some p) _ => .unit (.error p) false
  | .done o => o
  | _ => .invalid

/-- The mutex was acquired, or found poisoned. -/
def SPc.begun : SPc V → Bool
  | .wait => false
  | _ => true

/-- A schedule together with the order in which the operations acquire the mutex or find it poisoned. -/
def trackStep (env : Env V) (x : SState V × List Nat) (a : SSched V) : SState V × List Nat :=
  let s' := x.1.step env a
  (s', match a with
    | .start _ _ => x.2
    | .step id =>
      match x.1.acts[id]?, s'.acts[id]? with
      | some act, some act' => if !SPc.begun act.pc && SPc.begun act'.pc then x.2 ++ [id] else x.2
      | _, _ => x.2)

/-- What the operation with this number will report. -/
def predicted (env : Env V) (s : SState V) (id : Nat) : Option (Obs V) :=
  (s.acts[id]?).map fun act =>
    if s.held = some id then (act.finish env s.sf s.world).1 else SAct.outcome env s.sf.mi act

/-- The state once the holder of the mutex has released it. -/
def settled (env : Env V) (s : SState V) : StaticFn V × World V :=
  match s.held with
  | none => (s.sf, s.world)
  | some h =>
    match s.acts[h]? with
    | none => (s.sf, s.world)
    | some act => ((act.finish env s.sf s.world).2.1, (act.finish env s.sf s.world).2.2)

/-- The sequential program that the operations amount to. -/
def sequential (f : Nat) (s : SState V) (lin : List Nat) : List (Op V) :=
  lin.filterMap fun id => (s.acts[id]?).map (seqOp f)

theorem run_append (env : Env V) (a b : List (Op V)) (s : Sys V) :
    Sys.run env (a ++ b) s = ((Sys.run env a s).1 ++ (Sys.run env b (Sys.run env a s).2).1,
      (Sys.run env b (Sys.run env a s).2).2) := by
  induction a generalizing s with
  | nil => rfl
  | cons op ops ih => simp [Sys.run, ih]

/-- No thread drops a `Context` while panicking. -/
def SSched.Orderly : SSched V → Prop
  | .start _ op => op ≠ .dropPanicking
  | .step _ => True

structure SInv (env : Env V) (s0 : Sys V) (f : Nat) (s : SState V) (lin : List Nat) : Prop where
  orderly : ∀ act ∈ s.acts, act.op ≠ .dropPanicking ∧ act.pc ≠ .clear ∧ act.pc ≠ .tryWait
  nodup : lin.Nodup
  begun : ∀ id act, s.acts[id]? = some act → (id ∈ lin ↔ SPc.begun act.pc = true)
  range : ∀ id ∈ lin, id < s.acts.length
  holder : ∀ id act, s.acts[id]? = some act → (act.pc.inside = true ↔ s.held = some id)
  held : ∀ h, s.held = some h → h < s.acts.length ∧ s.sf.poison = false
  obs : (Sys.run env (sequential f s lin) s0).1.map some = lin.map (predicted env s)
  state : (Sys.run env (sequential f s lin) s0).2 = embed s0 f (settled env s).1 (settled env s).2

theorem map_set {acts : List (SAct V)} {id : Nat} {act act' : SAct V} (h : acts[id]? = some act) {α : Type}
    (g : SAct V → α) (hg : g act' = g act) (j : Nat) : ((acts.set id act')[j]?).map g = (acts[j]?).map g := by
  rw [List.getElem?_set]
  split
  · rename_i hj
    subst hj
    rw [h]
    have := (List.getElem?_eq_some_iff.mp h).1
    simp [this, hg]
  · rfl

theorem seqOp_congr (f : Nat) {act act' : SAct V} (h1 : act'.op = act.op) (h2 : act'.tid = act.tid) :
    seqOp f act' = seqOp f act := by
  unfold seqOp
  rw [h1, h2]

/-- A step of an operation that has begun. -/
theorem SInv.upd {env : Env V} {s0 : Sys V} {f : Nat} {s : SState V} {lin : List Nat} (h : SInv env s0 f s lin)
    {id : Nat} {act act' : SAct V} (hid : s.acts[id]? = some act) {sf' : StaticFn V} {w' : World V} {held' : Option Nat}
    (hop : act'.op = act.op) (htid : act'.tid = act.tid) (hpc : act'.pc ≠ .clear ∧ act'.pc ≠ .tryWait)
    (hb : SPc.begun act.pc = true) (hb' : SPc.begun act'.pc = true) (hmi : sf'.mi = s.sf.mi)
    (hcase : (s.held = some id ∧ ((held' = some id ∧ sf'.poison = false) ∨ held' = none)) ∨
      (s.held ≠ some id ∧ sf' = s.sf ∧ w' = s.world ∧ held' = s.held))
    (hin : act'.pc.inside = true ↔ held' = some id)
    (hpred : predicted env ⟨sf', w', held', s.acts.set id act'⟩ id = predicted env s id)
    (hset : settled env ⟨sf', w', held', s.acts.set id act'⟩ = settled env s) :
    SInv env s0 f ⟨sf', w', held', s.acts.set id act'⟩ lin := by
  have hlt := (List.getElem?_eq_some_iff.mp hid).1
  have hseq : sequential f ⟨sf', w', held', s.acts.set id act'⟩ lin = sequential f s lin := by
    unfold sequential
    congr 1
    funext j
    exact map_set hid _ (seqOp_congr f hop htid) j
  have hheld : ∀ j, j ≠ id → (held' = some j ↔ s.held = some j) := by
    intro j hj
    rcases hcase with ⟨h1, ⟨h2, _⟩ | h2⟩ | ⟨_, _, _, h2⟩
    · rw [h1, h2]
    · rw [h1, h2]; simp [Ne.symm hj]
    · rw [h2]
  refine ⟨?_, h.nodup, ?_, ?_, ?_, ?_, ?_, ?_⟩
  · intro a ha
    rcases List.mem_or_eq_of_mem_set ha with ha | rfl
    · exact h.orderly a ha
    · exact ⟨by rw [hop]; exact (h.orderly act (List.mem_of_getElem? hid)).1, hpc⟩
  · intro j a hj
    simp only [List.getElem?_set] at hj
    split at hj
    · rename_i hji
      subst hji
      simp [hlt] at hj
      subst hj
      rw [h.begun _ _ hid, hb, hb']
    · exact h.begun j a hj
  · intro j hj
    simpa using h.range j hj
  · intro j a hj
    simp only [List.getElem?_set] at hj
    split at hj
    · rename_i hji
      subst hji
      simp [hlt] at hj
      subst hj
      exact hin
    · rename_i hji
      rw [h.holder j a hj]
      exact (hheld j (Ne.symm hji)).symm
  · intro j hj
    simp only at hj
    by_cases hji : j = id
    · subst hji
      refine ⟨by simpa using hlt, ?_⟩
      rcases hcase with ⟨_, ⟨_, h2⟩ | h2⟩ | ⟨h1, _, _, h2⟩
      · exact h2
      · rw [h2] at hj; simp at hj
      · rw [h2] at hj; exact absurd hj h1
    · have hj' := (hheld j hji).mp hj
      refine ⟨by simpa using (h.held j hj').1, ?_⟩
      rcases hcase with ⟨h1, _⟩ | ⟨_, h2, _, _⟩
      · rw [h1] at hj'; exact absurd (Option.some.inj hj').symm hji
      · rw [h2]; exact (h.held j hj').2
  · rw [hseq, h.obs]
    apply List.map_congr_left
    intro j _
    by_cases hji : j = id
    · subst hji; exact hpred.symm
    · simp only [predicted, List.getElem?_set_ne (Ne.symm hji), hheld j hji, hmi]
      rcases hj : s.acts[j]? with _ | a
      · rfl
      · simp only [Option.map_some]
        by_cases hhj : s.held = some j
        · simp only [hhj, if_true]
          rcases hcase with ⟨h1, _⟩ | ⟨_, h2, h3, _⟩
          · rw [h1] at hhj; exact absurd (Option.some.inj hhj).symm hji
          · rw [h2, h3]
        · simp only [hhj, if_false]
  · rw [hseq, hset]
    exact h.state

/-- An operation acquires the mutex, or finds it poisoned. -/
theorem SInv.enter {env : Env V} {s0 : Sys V} {f : Nat} {s : SState V} {lin : List Nat} (h : SInv env s0 f s lin)
    {id : Nat} {act act' : SAct V} (hid : s.acts[id]? = some act) {held' : Option Nat}
    (hop : act'.op = act.op) (htid : act'.tid = act.tid) (hpc : act'.pc ≠ .clear ∧ act'.pc ≠ .tryWait)
    (hb : SPc.begun act.pc = false) (hb' : SPc.begun act'.pc = true)
    (hfree : s.held = none) (hcase : (held' = some id ∧ s.sf.poison = false) ∨ held' = none)
    (hin : act'.pc.inside = true ↔ held' = some id) {o : Obs V} {x : StaticFn V × World V}
    (hstep : (embed s0 f s.sf s.world).step env (seqOp f act) = (o, embed s0 f x.1 x.2))
    (hpred : predicted env ⟨s.sf, s.world, held', s.acts.set id act'⟩ id = some o)
    (hset : settled env ⟨s.sf, s.world, held', s.acts.set id act'⟩ = x) :
    SInv env s0 f ⟨s.sf, s.world, held', s.acts.set id act'⟩ (lin ++ [id]) := by
  have hlt := (List.getElem?_eq_some_iff.mp hid).1
  have hnot : id ∉ lin := by rw [h.begun id act hid, hb]; simp
  have hseq : sequential f ⟨s.sf, s.world, held', s.acts.set id act'⟩ (lin ++ [id]) =
      sequential f s lin ++ [seqOp f act] := by
    unfold sequential
    rw [List.filterMap_append]
    congr 1
    · congr 1
      funext j
      exact map_set hid _ (seqOp_congr f hop htid) j
    · simp [hlt, seqOp_congr f hop htid]
  have hheld : ∀ j, j ≠ id → held' ≠ some j := by
    intro j hj
    rcases hcase with ⟨h2, _⟩ | h2
    · rw [h2]; simp [Ne.symm hj]
    · rw [h2]; simp
  have hrun := h.state
  have hsettled : settled env s = (s.sf, s.world) := by simp [settled, hfree]
  rw [hsettled] at hrun
  refine ⟨?_, ?_, ?_, ?_, ?_, ?_, ?_, ?_⟩
  · intro a ha
    rcases List.mem_or_eq_of_mem_set ha with ha | rfl
    · exact h.orderly a ha
    · exact ⟨by rw [hop]; exact (h.orderly act (List.mem_of_getElem? hid)).1, hpc⟩
  · rw [List.nodup_append]
    exact ⟨h.nodup, by simp, by intro a ha b hb hab; simp at hb; subst hb; subst hab; exact hnot ha⟩
  · intro j a hj
    simp only [List.getElem?_set] at hj
    split at hj
    · rename_i hji
      subst hji
      simp [hlt] at hj
      subst hj
      simp [hb']
    · rename_i hji
      rw [← h.begun j a hj]
      simp [Ne.symm hji]
  · intro j hj
    simp only [List.mem_append, List.mem_singleton] at hj
    rcases hj with hj | rfl
    · simpa using h.range j hj
    · simpa using hlt
  · intro j a hj
    simp only [List.getElem?_set] at hj
    split at hj
    · rename_i hji
      subst hji
      simp [hlt] at hj
      subst hj
      exact hin
    · rename_i hji
      rw [h.holder j a hj, hfree]
      simp [hheld j (Ne.symm hji)]
  · intro j hj
    simp only at hj
    by_cases hji : j = id
    · subst hji
      refine ⟨by simpa using hlt, ?_⟩
      rcases hcase with ⟨_, h2⟩ | h2
      · exact h2
      · rw [h2] at hj; simp at hj
    · exact absurd hj (hheld j hji)
  · rw [hseq, run_append]
    simp only [List.map_append, h.obs, List.map_cons, List.map_nil]
    congr 1
    · apply List.map_congr_left
      intro j hj
      have hji : j ≠ id := fun e => hnot (e ▸ hj)
      simp only [predicted, List.getElem?_set_ne (Ne.symm hji), hheld j hji, hfree]
      simp
    · rw [hrun, hpred]
      simp only [Sys.run]
      rw [hstep]
      rfl
  · rw [hseq, run_append, hrun]
    simp only [Sys.run]
    rw [hstep, hset]

theorem filterMap_agree {α β : Type} {g h : α → Option β} {l : List α} (hl : ∀ x ∈ l, g x = h x) :
    l.filterMap g = l.filterMap h := by
  induction l with
  | nil => rfl
  | cons a l ih =>
    rw [List.filterMap_cons, List.filterMap_cons, hl a (by simp), ih fun x hx => hl x (by simp [hx])]

/-- A thread begins an operation. -/
theorem SInv.start {env : Env V} {s0 : Sys V} {f : Nat} {s : SState V} {lin : List Nat} (h : SInv env s0 f s lin)
    (tid : Nat) (op : SOp V) (hop : op ≠ .dropPanicking) :
    SInv env s0 f { s with acts := s.acts ++ [⟨tid, op, .wait⟩] } lin := by
  have hget : ∀ j, j < s.acts.length → (s.acts ++ [⟨tid, op, .wait⟩])[j]? = s.acts[j]? := fun j hj =>
    List.getElem?_append_left hj
  have hcase : ∀ (j : Nat) (a : SAct V), (s.acts ++ [⟨tid, op, .wait⟩])[j]? = some a →
      s.acts[j]? = some a ∨ (j = s.acts.length ∧ a = ⟨tid, op, .wait⟩) := by
    intro j a hj
    rcases Nat.lt_trichotomy j s.acts.length with hlt | heq | hgt
    · rw [hget j hlt] at hj; exact .inl hj
    · subst heq
      rw [List.getElem?_append_right (Nat.le_refl _)] at hj
      simp at hj
      exact .inr ⟨rfl, hj.symm⟩
    · rw [List.getElem?_eq_none (by simp; omega)] at hj
      simp at hj
  have hseq : sequential f { s with acts := s.acts ++ [⟨tid, op, .wait⟩] } lin = sequential f s lin := by
    unfold sequential
    apply filterMap_agree
    intro j hj
    simp only [hget j (h.range j hj)]
  have hsettled : settled env { s with acts := s.acts ++ [⟨tid, op, .wait⟩] } = settled env s := by
    unfold settled
    rcases hh : s.held with _ | j
    · simp
    · simp only [hget j (h.held j hh).1]
  refine ⟨?_, h.nodup, ?_, ?_, ?_, ?_, ?_, ?_⟩
  · intro a ha
    rcases List.mem_append.mp ha with ha | ha
    · exact h.orderly a ha
    · simp at ha
      subst ha
      exact ⟨hop, by simp, by simp⟩
  · intro j a hj
    rcases hcase j a hj with hj | ⟨rfl, rfl⟩
    · exact h.begun j a hj
    · simp only [SPc.begun, Bool.false_eq_true, iff_false]
      intro hj
      exact Nat.lt_irrefl _ (h.range _ hj)
  · intro j hj
    have := h.range j hj
    simp
    omega
  · intro j a hj
    rcases hcase j a hj with hj | ⟨rfl, rfl⟩
    · exact h.holder j a hj
    · constructor
      · intro hin; simp [SPc.inside, SPc.working] at hin
      · intro hh; exact absurd (h.held _ hh).1 (Nat.lt_irrefl _)
  · intro j hj
    have := h.held j hj
    refine ⟨?_, this.2⟩
    simp
    omega
  · rw [hseq, h.obs]
    apply List.map_congr_left
    intro j hj
    simp only [predicted, hget j (h.range j hj)]
  · rw [hseq, hsettled]
    exact h.state

theorem trackStep_fst (env : Env V) (x : SState V × List Nat) (a : SSched V) :
    (trackStep env x a).1 = x.1.step env a := rfl

theorem predicted_set {env : Env V} {s : SState V} {id : Nat} {act : SAct V} (hid : s.acts[id]? = some act)
    (sf' : StaticFn V) (w' : World V) (held' : Option Nat) (act' : SAct V) :
    predicted env ⟨sf', w', held', s.acts.set id act'⟩ id =
      some (if held' = some id then (act'.finish env sf' w').1 else SAct.outcome env sf'.mi act') := by
  have hlt := (List.getElem?_eq_some_iff.mp hid).1
  simp [predicted, hlt]

theorem settled_set {env : Env V} {s : SState V} {id : Nat} {act : SAct V} (hid : s.acts[id]? = some act)
    (sf' : StaticFn V) (w' : World V) (act' : SAct V) :
    settled env ⟨sf', w', some id, s.acts.set id act'⟩ = (act'.finish env sf' w').2 := by
  have hlt := (List.getElem?_eq_some_iff.mp hid).1
  simp [settled, hlt]

theorem SInv.stepOne {env : Env V} {s0 : Sys V} {f : Nat} (hf : f < s0.statics.length) {s : SState V} {lin : List Nat}
    (h : SInv env s0 f s lin) (id : Nat) :
    SInv env s0 f (trackStep env (s, lin) (.step id)).1 (trackStep env (s, lin) (.step id)).2 := by
  rcases hid : s.acts[id]? with _ | act
  · simp only [trackStep, SState.step, hid]
    exact h
  have hlt := (List.getElem?_eq_some_iff.mp hid).1
  have hord := h.orderly act (List.mem_of_getElem? hid)
  have hhold := h.holder id act hid
  have hlin : ∀ s' : SState V, act.step env id s = some s' → ∀ act', s'.acts[id]? = some act' →
      trackStep env (s, lin) (.step id) =
        (s', if !SPc.begun act.pc && SPc.begun act'.pc then lin ++ [id] else lin) := by
    intro s' hs' act' hact'
    simp only [trackStep, SState.step, hid, hs', Option.getD_some, hact']
  -- nothing happens
  have hstay : act.step env id s = none → SInv env s0 f (trackStep env (s, lin) (.step id)).1
      (trackStep env (s, lin) (.step id)).2 := by
    intro hn
    have : trackStep env (s, lin) (.step id) = (s, lin) := by
      simp only [trackStep, SState.step, hid, hn, Option.getD_none]
      cases SPc.begun act.pc <;> rfl
    rw [this]
    exact h
  -- a step of an operation that has begun
  have hgo : SPc.begun act.pc = true → ∀ (sf' : StaticFn V) (w' : World V) (held' : Option Nat) (pc' : SPc V),
      act.step env id s = some ⟨sf', w', held', s.acts.set id { act with pc := pc' }⟩ →
      SInv env s0 f ⟨sf', w', held', s.acts.set id { act with pc := pc' }⟩ lin →
      SInv env s0 f (trackStep env (s, lin) (.step id)).1 (trackStep env (s, lin) (.step id)).2 := by
    intro hb sf' w' held' pc' hs hinv
    rw [hlin _ hs { act with pc := pc' } (by simp [hlt])]
    simp only [hb]
    exact hinv
  have hwork : act.pc.working = true → SInv env s0 f (trackStep env (s, lin) (.step id)).1
      (trackStep env (s, lin) (.step id)).2 := by
    intro hw
    have hin : act.pc.inside = true := by
      obtain ⟨tid, op, pc⟩ := act
      cases pc <;> first | rfl | simp [SPc.working] at hw
    have hheld := hhold.mp hin
    have hb : SPc.begun act.pc = true := by
      obtain ⟨tid, op, pc⟩ := act
      cases pc <;> first | rfl | simp [SPc.working] at hw
    have hin' := SAct.inner_inside env act s.sf s.world hw
    have hfin := SAct.inner_finish env act s.sf s.world hw
    simp only at hfin
    refine hgo hb (act.inner env s.sf s.world).2.1 (act.inner env s.sf s.world).2.2 (some id)
      (act.inner env s.sf s.world).1 ?_ ?_
    · obtain ⟨tid, op, pc⟩ := act
      cases pc <;> simp only [SPc.working, Bool.false_eq_true] at hw <;> simp only [SAct.step, hheld]
    · refine h.upd hid rfl rfl ?_ hb ?_ (SAct.inner_mi _ _ _ _)
        (.inl ⟨hheld, .inl ⟨rfl, by rw [SAct.inner_poison]; exact (h.held id hheld).2⟩⟩) ?_ ?_ ?_
      · simp only
        generalize (act.inner env s.sf s.world).1 = pc at hin'
        cases pc <;> simp [SPc.inside, SPc.working] at hin' ⊢
      · simp only
        generalize (act.inner env s.sf s.world).1 = pc at hin'
        cases pc <;> first | rfl | simp [SPc.inside, SPc.working] at hin'
      · simp [hin']
      · rw [predicted_set hid, hfin]
        simp [predicted, hid, hheld]
      · rw [settled_set hid, hfin]
        simp [settled, hheld, hid]
  have hout : SPc.begun act.pc = true → act.pc.inside = false → ∀ pc' : SPc V,
      act.step env id s = some { s with acts := s.acts.set id { act with pc := pc' } } →
      (pc' ≠ .clear ∧ pc' ≠ .tryWait) → SPc.begun pc' = true → pc'.inside = false →
      SAct.outcome env s.sf.mi { act with pc := pc' } = SAct.outcome env s.sf.mi act →
      SInv env s0 f (trackStep env (s, lin) (.step id)).1 (trackStep env (s, lin) (.step id)).2 := by
    intro hb hin pc' hs hpc hb' hin' ho
    have hheld : s.held ≠ some id := by
      intro e
      have := hhold.mpr e
      rw [hin] at this
      simp at this
    refine hgo hb s.sf s.world s.held pc' hs ?_
    refine h.upd hid rfl rfl hpc hb hb' rfl (.inr ⟨hheld, rfl, rfl, rfl⟩) ?_ ?_ ?_
    · simp [hin', hheld]
    · rw [predicted_set hid]
      simp [predicted, hid, hheld, ho]
    · unfold settled
      simp only
      rcases hh : s.held with _ | j
      · rfl
      · simp only
        rw [List.getElem?_set_ne (by intro e; subst e; exact hheld hh)]
  obtain ⟨tid, op, pc⟩ := act
  cases pc with
  | clear => exact absurd rfl hord.2.1
  | tryWait => exact absurd rfl hord.2.2
  | wait =>
    rcases hheld : s.held with _ | j
    · by_cases hp : s.sf.poison = true
      · have hs : SAct.step env id ⟨tid, op, .wait⟩ s =
            some ⟨s.sf, s.world, s.held, s.acts.set id ⟨tid, op, .done op.poisoned⟩⟩ := by
          simp [SAct.step, hheld, hp]
        rw [hlin _ hs ⟨tid, op, .done op.poisoned⟩ (by simp [hlt])]
        refine h.enter (x := (s.sf, s.world)) hid rfl rfl ⟨by simp, by simp⟩ rfl rfl hheld (.inr hheld) ?_
          (seq_poisoned env s0 f hf ⟨tid, op, .wait⟩ hord.1 s.sf s.world hp) ?_ ?_
        · simp [hheld, SPc.inside, SPc.working]
        · rw [predicted_set hid]
          simp [hheld, SAct.outcome]
        · simp [settled, hheld]
      · have hp : s.sf.poison = false := by simpa using hp
        have hs : SAct.step env id ⟨tid, op, .wait⟩ s =
            some ⟨s.sf, s.world, some id, s.acts.set id ⟨tid, op, op.first⟩⟩ := by
          simp [SAct.step, hheld, hp]
        have hfirst : op.first.inside = true ∧ SPc.begun op.first = true ∧ op.first ≠ .clear ∧ op.first ≠ .tryWait := by
          cases op <;> simp [SOp.first, SPc.inside, SPc.working, SPc.begun]
        have hb2 : SPc.begun (SPc.wait : SPc V) = false := rfl
        rw [hlin _ hs ⟨tid, op, op.first⟩ (by simp [hlt])]
        simp only [hfirst.2.1, hb2]
        refine h.enter hid rfl rfl hfirst.2.2 rfl hfirst.2.1 hheld (.inl ⟨rfl, hp⟩) ?_
          (seq_step env s0 f hf ⟨tid, op, .wait⟩ hord.1 s.sf s.world hp) ?_ ?_
        · simp [hfirst.1]
        · rw [predicted_set hid]
          simp
        · rw [settled_set hid]
    · exact hstay (by simp [SAct.step, hheld])
  | scan i => exact hwork rfl
  | check i => exact hwork rfl
  | inc i => exact hwork rfl
  | verify i => exact hwork rfl
  | sat i => exact hwork rfl
  | satisfy i => exact hwork rfl
  | ret i => exact hwork rfl
  | push => exact hwork rfl
  | build i bs => exact hwork rfl
  | drain => exact hwork rfl
  | leave r =>
    have hheld := hhold.mp rfl
    refine hgo rfl { s.sf with poison := panicked r } s.world none (.answer r) rfl ?_
    refine h.upd hid rfl rfl ⟨by simp, by simp⟩ rfl rfl rfl (.inl ⟨hheld, .inr rfl⟩) ?_ ?_ ?_
    · simp [SPc.inside, SPc.working]
    · rw [predicted_set hid]
      simp [predicted, hid, hheld, SAct.outcome, SAct.finish, SAct.rest]
    · simp [settled, hheld, hid, SAct.finish, SAct.rest]
  | leaveExpect i r =>
    have hheld := hhold.mp rfl
    refine hgo rfl { s.sf with poison := panicked r } { s.world with made := s.world.made ++
        [(((s.sf.store.vec op.key)[i]?).map (·.chain)).getD []] } none (.done (.unit r false)) rfl ?_
    refine h.upd hid rfl rfl ⟨by simp, by simp⟩ rfl rfl rfl (.inl ⟨hheld, .inr rfl⟩) ?_ ?_ ?_
    · simp [SPc.inside, SPc.working]
    · rw [predicted_set hid]
      simp [predicted, hid, hheld, SAct.outcome, SAct.finish]
    · simp [settled, hheld, hid, SAct.finish]
  | leaveDrain es =>
    have hheld := hhold.mp rfl
    refine hgo rfl s.sf s.world none (.dropping none es) rfl ?_
    refine h.upd hid rfl rfl ⟨by simp, by simp⟩ rfl rfl rfl (.inl ⟨hheld, .inr rfl⟩) ?_ ?_ ?_
    · simp [SPc.inside, SPc.working]
    · rw [predicted_set hid]
      simp [predicted, hid, hheld, SAct.outcome, SAct.finish]
    · simp [settled, hheld, hid, SAct.finish]
  | answer r => exact hout rfl rfl _ rfl ⟨by simp, by simp⟩ rfl rfl rfl
  | done o => exact hstay rfl
  | dropping p es =>
    have hpan : op.panicking = false := by
      have := hord.1
      cases op <;> first | rfl | exact absurd rfl this
    cases es with
    | nil =>
      refine hout rfl rfl _ rfl ⟨by simp, by simp⟩ rfl rfl ?_
      cases p <;> rfl
    | cons e es =>
      cases p with
      | none =>
        rcases hd : e.drop false s.sf.mi.base with q | _
        · refine hout rfl rfl (.dropping (some q) es) (by simp [SAct.step, hpan, hd]) ⟨by simp, by simp⟩ rfl rfl ?_
          simp [SAct.outcome, dropAll, hd, hpan, dropAll_panicking]
        · refine hout rfl rfl (.dropping none es) (by simp [SAct.step, hpan, hd]) ⟨by simp, by simp⟩ rfl rfl ?_
          simp [SAct.outcome, dropAll, hd, hpan]
      | some q =>
        have hd : e.drop true s.sf.mi.base = .ok () := by simp [Expectation.drop, Common.drop]
        exact hout rfl rfl (.dropping (some q) es) (by simp [SAct.step, hpan, hd]) ⟨by simp, by simp⟩ rfl rfl rfl

/-- A schedule with the order in which the operations take effect. -/
def track (env : Env V) (sch : List (SSched V)) (x : SState V × List Nat) : SState V × List Nat :=
  sch.foldl (trackStep env) x

theorem track_fst (env : Env V) (sch : List (SSched V)) (x : SState V × List Nat) :
    (track env sch x).1 = x.1.run env sch := by
  induction sch generalizing x with
  | nil => rfl
  | cons a sch ih => exact ih (trackStep env x a)

theorem track_prefix (env : Env V) (sch : List (SSched V)) (x : SState V × List Nat) :
    ∃ l, (track env sch x).2 = x.2 ++ l := by
  induction sch generalizing x with
  | nil => exact ⟨[], by simp [track]⟩
  | cons a sch ih =>
    obtain ⟨l, hl⟩ := ih (trackStep env x a)
    have : ∃ l, (trackStep env x a).2 = x.2 ++ l := by
      unfold trackStep
      simp only
      repeat' split
      all_goals first | exact ⟨_, rfl⟩ | exact ⟨[], by simp⟩
    obtain ⟨l', hl'⟩ := this
    refine ⟨l' ++ l, ?_⟩
    change (track env sch (trackStep env x a)).2 = _
    rw [hl, hl', List.append_assoc]

theorem sinv_run {env : Env V} {s0 : Sys V} {f : Nat} (hf : f < s0.statics.length) {sch : List (SSched V)}
    (hord : ∀ a ∈ sch, SSched.Orderly a) {s : SState V} {lin : List Nat} (h : SInv env s0 f s lin) :
    SInv env s0 f (track env sch (s, lin)).1 (track env sch (s, lin)).2 := by
  induction sch generalizing s lin with
  | nil => exact h
  | cons a sch ih =>
    have hstep : SInv env s0 f (trackStep env (s, lin) a).1 (trackStep env (s, lin) a).2 := by
      cases a with
      | step id => exact h.stepOne hf id
      | start tid op =>
        have hop : op ≠ .dropPanicking := hord (.start tid op) (by simp)
        have hst : op.start = .wait := by cases op <;> first | rfl | exact absurd rfl hop
        simp only [trackStep, SState.step]
        split
        · rw [hst]; exact h.start tid op hop
        · exact h
    exact ih (fun a ha => hord a (by simp [ha])) (s := (trackStep env (s, lin) a).1) (lin := (trackStep env (s, lin) a).2) hstep

theorem embed_self {s0 : Sys V} {f : Nat} {sf : StaticFn V} (hf : s0.statics[f]? = some sf) :
    embed s0 f sf s0.world = s0 := by
  obtain ⟨hlt, hget⟩ := List.getElem?_eq_some_iff.mp hf
  have : s0.statics.set f sf = s0.statics := by rw [← hget]; exact List.set_getElem_self hlt
  simp [embed, this]

/-- The machine at rest, in the middle of a program: method `f` is at rest, nobody uses it. -/
def atRest (sf : StaticFn V) (w : World V) : SState V := ⟨sf, w, none, []⟩

theorem SInv.init {env : Env V} {s0 : Sys V} {f : Nat} {sf : StaticFn V} (hf : s0.statics[f]? = some sf) :
    SInv env s0 f (atRest sf s0.world) [] := by
  refine ⟨by simp [atRest], by simp, by simp [atRest], by simp, by simp [atRest], by simp [atRest], rfl, ?_⟩
  simp only [sequential, List.filterMap_nil, Sys.run, settled, atRest]
  exact (embed_self hf).symm

/-- Number `a` comes before number `b` in a list. -/
def Precedes (l : List Nat) (a b : Nat) : Prop := ∃ x y z, l = x ++ a :: y ++ b :: z

/-- **C40**: any number of threads call a static method, set expectations on it, checkpoint it and drop `Context`s of it,
under any schedule, from any state of the program.  Then there is an order `lin` of operations such
that the sequential program that does them one after the other in this order
* has every operation that is over, and gives it the same outcome;
* has an operation that was over before another one began before that one;
* ends in the same state, if all operations are over.

(Excluded: drops of a `Context` by a panicking thread, see `C40_unwinding_refuted`.) -/
theorem C40_linearisable (env : Env V) (s0 : Sys V) (f : Nat) (sf : StaticFn V) (hf : s0.statics[f]? = some sf)
    (sch : List (SSched V)) (hord : ∀ a ∈ sch, SSched.Orderly a) :
    let s := (atRest sf s0.world).run env sch
    ∃ lin : List Nat, lin.Nodup ∧ (∀ id ∈ lin, id < s.acts.length) ∧
      (∀ (id : Nat) (act : SAct V) (o : Obs V), s.acts[id]? = some act → act.pc = .done o →
        ∃ n : Nat, lin[n]? = some id ∧ (sequential f s lin)[n]? = some (seqOp f act) ∧
          (Sys.run env (sequential f s lin) s0).1[n]? = some o) ∧
      (∀ (pre post : List (SSched V)) (a b : Nat) (act : SAct V), sch = pre ++ post →
        ((atRest sf s0.world).run env pre).acts[a]? = some act → act.finished = true →
        ((atRest sf s0.world).run env pre).acts.length ≤ b → b ∈ lin → Precedes lin a b) ∧
      ((∀ act ∈ s.acts, act.finished = true) →
        (Sys.run env (sequential f s lin) s0).2 = { s0 with statics := s0.statics.set f s.sf, world := s.world }) := by
  intro s
  have hlt := (List.getElem?_eq_some_iff.mp hf).1
  have hinv := sinv_run hlt hord (SInv.init (env := env) hf)
  have hs : (track env sch (atRest sf s0.world, [])).1 = s := track_fst env sch _
  generalize hl : (track env sch (atRest sf s0.world, [])).2 = lin at hinv
  rw [hs] at hinv
  refine ⟨lin, hinv.nodup, hinv.range, ?_, ?_, ?_⟩
  · intro id act o hid hpc
    have hmem : id ∈ lin := (hinv.begun id act hid).mpr (by rw [hpc]; rfl)
    obtain ⟨n, hn⟩ := List.getElem?_of_mem hmem
    have hnot : s.held ≠ some id := by
      intro e
      have := (hinv.holder id act hid).mpr e
      rw [hpc] at this
      simp [SPc.inside, SPc.working] at this
    refine ⟨n, hn, ?_, ?_⟩
    · have hfm : sequential f s lin = lin.map fun id => ((s.acts[id]?).map (seqOp f)).getD (.mcheckpoint []) := by
        have := hinv.range
        clear hmem hn hl hinv
        induction lin with
        | nil => rfl
        | cons j l ih =>
          have hj := this j (by simp)
          simp only [sequential, List.filterMap_cons, List.map_cons]
          rw [List.getElem?_eq_getElem hj]
          simp only [Option.map_some, Option.getD_some, List.cons.injEq, true_and]
          exact ih fun i hi => this i (by simp [hi])
      rw [hfm, List.getElem?_map, hn]
      simp [hid]
    · have := congrArg (·[n]?) hinv.obs
      simp only [List.getElem?_map, hn, Option.map_some, predicted, hid, hnot, if_false, SAct.outcome, hpc] at this
      rcases hx : (Sys.run env (sequential f s lin) s0).1[n]? with _ | x
      · rw [hx] at this; simp at this
      · rw [hx] at this
        simp at this
        rw [this]
  · intro pre post a b act hsch ha hfin hb hbl
    subst hsch
    have hpre := sinv_run hlt (sch := pre) (fun x hx => hord x (by simp [hx])) (SInv.init (env := env) hf)
    have hp1 : (track env pre (atRest sf s0.world, [])).1 = (atRest sf s0.world).run env pre := track_fst env pre _
    generalize hl1 : (track env pre (atRest sf s0.world, [])).2 = lin1 at hpre
    rw [hp1] at hpre
    obtain ⟨l, hl2⟩ := track_prefix env post (track env pre (atRest sf s0.world, []))
    have hcat : lin = lin1 ++ l := by
      rw [← hl1, ← hl2, ← hl]
      simp [track]
    have ha1 : a ∈ lin1 := (hpre.begun a act ha).mpr (by
      obtain ⟨tid, op, pc⟩ := act
      cases pc <;> first | rfl | simp [SAct.finished] at hfin)
    have hb1 : b ∉ lin1 := fun h => by
      have := hpre.range b h
      omega
    have hb2 : b ∈ l := by
      rw [hcat] at hbl
      exact (List.mem_append.mp hbl).resolve_left hb1
    obtain ⟨x1, y1, h1⟩ := List.append_of_mem ha1
    obtain ⟨x2, y2, h2⟩ := List.append_of_mem hb2
    exact ⟨x1, y1 ++ x2, y2, by rw [hcat, h1, h2]; simp⟩
  · intro hall
    rw [hinv.state]
    have hfree : s.held = none := by
      rcases hh : s.held with _ | j
      · rfl
      · exfalso
        have hj := (hinv.held j hh).1
        have hget : s.acts[j]? = some s.acts[j] := List.getElem?_eq_getElem hj
        have hin := (hinv.holder j _ hget).mpr hh
        have hfin := hall _ (List.getElem_mem hj)
        generalize s.acts[j] = act at hin hfin
        obtain ⟨tid, op, pc⟩ := act
        cases pc <;> simp [SPc.inside, SPc.working, SAct.finished] at hin hfin
    simp [settled, hfree, embed]

/-- **C40**, progress: while some operation is not over, some operation that is not over can make a step. -/
theorem C40_progress (env : Env V) (s0 : Sys V) (f : Nat) (sf : StaticFn V) (hf : s0.statics[f]? = some sf)
    (sch : List (SSched V)) (hord : ∀ a ∈ sch, SSched.Orderly a) :
    let s := (atRest sf s0.world).run env sch
    (∃ act ∈ s.acts, act.finished = false) →
    ∃ (id : Nat) (act : SAct V), s.acts[id]? = some act ∧ act.finished = false ∧ (act.step env id s).isSome = true := by
  intro s ⟨act, hact, hfin⟩
  have hlt := (List.getElem?_eq_some_iff.mp hf).1
  have hinv := sinv_run hlt hord (SInv.init (env := env) hf)
  have hs : (track env sch (atRest sf s0.world, [])).1 = s := track_fst env sch _
  rw [hs] at hinv
  have hcan : ∀ (id : Nat) (act : SAct V), act.finished = false → (act.pc = .wait → s.held = none) →
      (act.pc ≠ .tryWait) → (act.step env id s).isSome = true := by
    intro id act hfin hw ht
    obtain ⟨tid, op, pc⟩ := act
    cases pc with
    | wait =>
      simp only [SAct.step, hw rfl]
      split <;> rfl
    | tryWait => exact absurd rfl ht
    | done o => simp [SAct.finished] at hfin
    | dropping p es =>
      cases es with
      | nil => rfl
      | cons e es =>
        simp only [SAct.step]
        repeat' split
        all_goals rfl
    | _ => rfl
  rcases hh : s.held with _ | j
  · obtain ⟨id, hid⟩ := List.getElem?_of_mem hact
    exact ⟨id, act, hid, hfin, hcan id act hfin (fun _ => hh) (hinv.orderly act hact).2.2⟩
  · have hj := (hinv.held j hh).1
    have hget : s.acts[j]? = some s.acts[j] := List.getElem?_eq_getElem hj
    have hin := (hinv.holder j _ hget).mpr hh
    refine ⟨j, s.acts[j], hget, ?_, hcan j _ ?_ ?_ (hinv.orderly _ (List.getElem_mem hj)).2.2⟩
    all_goals
      generalize s.acts[j] = act at hin
      obtain ⟨tid, op, pc⟩ := act
      cases pc <;> simp [SPc.inside, SPc.working, SAct.finished] at hin ⊢

/-! ## A race, and the hypotheses are met -/

section Examples

/-- A static method `foo`. -/
def fooInfo : MethodInfo Nat := ⟨false, ⟨.static, "MockFoo::foo", "MockFoo::foo", none⟩, fun _ => none⟩

def fooEnv : Env Nat := ⟨false, toString, id⟩

/-- All operations are over, with these results. -/
def results (s : SState Nat) : List (Option (Obs Nat)) :=
  s.acts.map fun act => match act.pc with | .done o => some o | _ => none

/-- Three threads: one adds an expectation, one calls, one checkpoints.  Thread 2 begins its call while thread 1 holds
the mutex, and thread 3 its checkpoint while thread 2 holds it; thread 3 gets there last. -/
def fooRace : List (SSched Nat) :=
  [.start 1 (.expect 0 [.times (.n 1), .returnConst 7]), .step 0, .step 0, .start 2 (.call 0 [3]), .step 1, .step 0,
    .step 0, .step 0, .step 0, .step 1, .step 1, .start 3 .checkpoint, .step 2, .step 1, .step 1, .step 1, .step 1,
    .step 1, .step 1, .step 1, .step 2, .step 1, .step 2, .step 2, .step 2, .step 2, .step 2]

example : (∀ a ∈ fooRace, SSched.Orderly a) ∧
    results ((atRest (StaticFn.new fooInfo) (Sys.init [fooInfo]).world).run fooEnv fooRace) =
      [some (.unit (.ok ()) false), some (.value (.ok 7)), some (.unit (.ok ()) false)] := by
  constructor
  · intro a ha
    simp only [fooRace, List.mem_cons, List.not_mem_nil, or_false] at ha
    rcases ha with h | h | h | h | h | h | h | h | h | h | h | h | h | h | h | h | h | h | h | h | h | h | h | h | h | h | h <;>
      subst h <;> simp [SSched.Orderly]
  · rfl

/-- The method has one expectation, whose closure panics. -/
def angry : Sys Nat :=
  (Sys.run fooEnv [.sexpect 0 0 [.returning { run := fun _ _ => .error (.user "boom") }]] (Sys.init [fooInfo])).2

/-- Thread 1 calls.  While it runs the closure, thread 2, which is panicking, drops its `Context`: it clears the poison
flag, then waits.  The closure panics and poisons the mutex. -/
def unwindRace : List (SSched Nat) :=
  [.start 1 (.call 0 [3])] ++ List.replicate 7 (.step 0) ++ [.start 2 .dropPanicking, .step 1, .step 1] ++
    List.replicate 3 (.step 0) ++ [.step 1, .step 1, .step 1, .step 1]

/-- The method after the race, and after the two operations one after the other in either order. -/
def unwound : Option (SState Nat) := (angry.statics[0]?).map fun sf => (atRest sf angry.world).run fooEnv unwindRace

/-- **C40, unwinding**: the drop of a `Context` by a panicking thread is not atomic.  In `unwindRace` the call panics with the
closure's message and the drop completes, and afterwards every call fails with a poisoned mutex.  If the drop
came first, the call would find no expectation; if the call came first, the mutex would not be
poisoned afterwards. -/
theorem C40_unwinding_refuted :
    (unwound.map results = some [some (.value (.error (.user "boom"))), some (.unit (.ok ()) false)] ∧
      (unwound.map fun s => (s.sf.call ⟨false, 1, toString, id⟩ 0 [3] s.world).1) = some (.error .poisoned)) ∧
    (Sys.run fooEnv [.sdrop 0 true, .scall 0 0 1 [3]] angry).1 =
      [.unit (.ok ()) false, .value (.error (.noMatch "MockFoo::foo(3)"))] ∧
    (Sys.run fooEnv [.scall 0 0 1 [3], .sdrop 0 true, .scall 0 0 1 [3]] angry).1 =
      [.value (.error (.user "boom")), .unit (.ok ()) false, .value (.error (.noMatch "MockFoo::foo(3)"))] := by
  refine ⟨⟨?_, ?_⟩, ?_, ?_⟩ <;> rfl

end Examples

end Mockall.Props
