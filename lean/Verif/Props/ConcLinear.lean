import Verif.Lemmas.Linear
import Verif.Props.ConcOrder

/-! # C85: calls that do not get in each other's way -/

set_option linter.unusedSimpArgs false

namespace Mockall.Props

open Mockall Spec

variable {V : Type}

theorem run_snoc_both (env : Env V) (ops : List (Op V)) (op : Op V) (s : Sys V) :
    Sys.run env (ops ++ [op]) s = ((Sys.run env ops s).1 ++ [((Sys.run env ops s).2.step env op).1],
      ((Sys.run env ops s).2.step env op).2) := by
  induction ops generalizing s with
  | nil => rfl
  | cons o ops ih => simp only [List.cons_append, Sys.run, ih]

/-- The invariant after any schedule in which overlapping calls are independent. -/
theorem linv_run {env : Env V} {ce : CEnv V} {num : Nat → MockFn} {s0 : Sys V} {m0 : Mem V}
    (sh : Shared env s0 num ce m0) (sch : List (Sched V)) (t : CState V)
    (hi : Independent ce s0 num m0 sch t)
    (h : LInv env ce num s0 m0 t (Sys.run env (t.acts.map (asOp num)) s0).2
      (Sys.run env (t.acts.map (asOp num)) s0).1) :
    LInv env ce num s0 m0 (t.run ce sch) (Sys.run env ((t.run ce sch).acts.map (asOp num)) s0).2
      (Sys.run env ((t.run ce sch).acts.map (asOp num)) s0).1 := by
  induction sch generalizing t with
  | nil => exact h
  | cons x xs ih =>
    cases x with
    | step id =>
      refine ih (t.step ce (.step id)) hi ?_
      simp only [CState.step]
      cases hact : t.acts[id]? with
      | none => exact h
      | some act =>
        cases hs : act.step ce id t.mem with
        | none => simp only [hs]; exact h
        | some r =>
          obtain ⟨act1, m1⟩ := r
          simp only [hs]
          have hid := (Act.step_rel hs).ident
          have hmap : (t.acts.set id act1).map (asOp num) = t.acts.map (asOp num) := by
            rw [List.map_set]
            have : asOp num act1 = asOp num act := by simp only [asOp, hid.1, hid.2.1, hid.2.2]
            rw [this]
            apply List.ext_getElem? 
            intro c
            rw [List.getElem?_set]
            split
            next hc =>
              subst hc
              simp only [List.getElem?_map, hact, List.length_map, Option.map_some]
              rw [if_pos (List.getElem?_eq_some_iff.mp hact).1]
            next => rfl
          simp only [hmap]
          exact h.step sh id act act1 m1 hact hs
    | start n tid args =>
      obtain ⟨⟨hn, hap⟩, hi⟩ := hi
      refine ih (t.step ce (.start n tid args)) hi ?_
      simp only [CState.step]
      split
      next hc =>
        have hst := h.start sh n tid args hn (fun act ha hf => by
          refine hap act ha hf ?_
          have := List.all_eq_true.mp hc act ha
          simpa [hf] using this)
        simp only [List.map_append, List.map_cons, List.map_nil, run_snoc_both]
        exact hst
      · exact h

/-- **C85.**  A program configures its mocks, in any way, and hands them to any number of threads.  The
threads call methods as they like, in any interleaving, but overlapping calls are to different functions
without a common sequence.  Then every call returns, or panics, exactly as it would if the same calls were
made by one thread, one after the other, in the order in which they began; and when all calls are over,
the mocks and sequences are in the state in which that thread would have left them. -/
theorem C85_linear (env : Env V) (sts : List (MethodInfo V)) (ops : List (Op V)) (num : Nat → MockFn)
    (ce : CEnv V) (m : Mem V) (hsh : Shared env (Sys.run env ops (Sys.init sts)).2 num ce m)
    (sch : List (Sched V))
    (hi : Independent ce (Sys.run env ops (Sys.init sts)).2 num m sch ⟨m, []⟩) :
    let t := CState.run ce sch ⟨m, []⟩
    let seq := Sys.run env (t.acts.map (asOp num)) (Sys.run env ops (Sys.init sts)).2
    (∀ (id : Nat) (act : Act V) (r : Except Panic V), t.acts[id]? = some act → act.pc = .done r →
      seq.1[id]? = some (.value r)) ∧
    ((∀ act ∈ t.acts, act.finished = true) → Shared env seq.2 num ce t.mem) := by
  simp only
  have h := linv_run hsh sch ⟨m, []⟩ hi (LInv.init (sorted_run env sts ops) hsh)
  generalize hS : (Sys.run env ops (Sys.init sts)).2 = s0 at hsh hi h ⊢
  generalize CState.run ce sch ⟨m, []⟩ = t at h ⊢
  refine ⟨h.done, fun hall => ?_⟩
  have hun : ∀ act ∈ t.acts, act.finished = false → False := fun act ha hf => by
    rw [hall act ha] at hf; cases hf
  -- slots of the final state are slots of the first
  have back : ∀ n sl, (num n).slot (Sys.run env (t.acts.map (asOp num)) s0).2 = some sl →
      ∃ sl0, (num n).slot s0 = some sl0 ∧ sl0.mi = sl.mi := by
    intro n sl hsl
    have := h.slots (num n)
    rw [hsl] at this
    cases hx : (num n).slot s0 with
    | none => simp [hx] at this
    | some sl0 => simp [hx] at this; exact ⟨sl0, rfl, this.symm⟩
  refine ⟨hsh.nightly, hsh.dbg, ?_, ?_, ?_, ?_, ?_, ?_, ?_⟩
  · intro n n' sl sl' hne h1 h2
    obtain ⟨a, ha, hm⟩ := back n sl h1
    obtain ⟨b, hb, _⟩ := back n' sl' h2
    have := hsh.distinct n n' a b hne ha hb
    simpa only [MockFn.Differ, hm] using this
  · intro n sl h1
    obtain ⟨a, ha, hm⟩ := back n sl h1
    rw [← hm]; exact hsh.info n a ha
  · intro n sl h1
    obtain ⟨a, ha, _⟩ := back n sl h1
    exact (h.idle n (by simp [ha]) (fun act hx hf => (hun act hx hf).elim)).1 sl h1
  · intro n sl h1
    obtain ⟨a, ha, _⟩ := back n sl h1
    exact hsh.nodup n a ha
  · intro n n' sl sl' hne h1 h2
    obtain ⟨a, ha, _⟩ := back n sl h1
    obtain ⟨b, hb, _⟩ := back n' sl' h2
    exact hsh.disjoint n n' a b hne ha hb
  · intro n sl h1
    obtain ⟨a, ha, _⟩ := back n sl h1
    exact (h.idle n (by simp [ha]) (fun act hx hf => (hun act hx hf).elim)).2
  · funext q
    exact h.seqs q (fun act hx hf => (hun act hx hf).elim)

theorem finishes_run {ce : CEnv V} {id : Nat} {act : Act V} {m m' : Mem V} {r : Except Panic V}
    (h : Finishes ce id act m r m') (acts : List (Act V)) (ha : acts[id]? = some act) :
    ∃ k act', act'.pc = .done r ∧
      CState.run ce (List.replicate k (.step id)) ⟨m, acts⟩ = ⟨m', acts.set id act'⟩ := by
  induction h generalizing acts with
  | @done act m r h =>
    refine ⟨0, act, h, ?_⟩
    have : acts.set id act = acts := by
      obtain ⟨hl, hx⟩ := List.getElem?_eq_some_iff.mp ha
      rw [← hx]; exact List.set_getElem_self hl
    rw [this]; rfl
  | @step act m act1 m1 r m' hs hf ih =>
    have h1 : (acts.set id act1)[id]? = some act1 := by rw [acts_set ha, if_pos rfl]
    obtain ⟨k, act', hd, hr⟩ := ih (acts.set id act1) h1
    refine ⟨k + 1, act', hd, ?_⟩
    rw [List.set_set] at hr
    rw [← hr, List.replicate_succ]
    simp only [CState.run, List.foldl_cons]
    congr 1
    simp only [CState.step, ha, hs]

/-- **C85.**  No call waits for ever: at any time any unfinished call can go on alone, and then ends, as it
would in the sequential program. -/
theorem C85_completes (env : Env V) (sts : List (MethodInfo V)) (ops : List (Op V)) (num : Nat → MockFn)
    (ce : CEnv V) (m : Mem V) (hsh : Shared env (Sys.run env ops (Sys.init sts)).2 num ce m)
    (sch : List (Sched V))
    (hi : Independent ce (Sys.run env ops (Sys.init sts)).2 num m sch ⟨m, []⟩) :
    let t := CState.run ce sch ⟨m, []⟩
    let seq := Sys.run env (t.acts.map (asOp num)) (Sys.run env ops (Sys.init sts)).2
    ∀ (id : Nat) (act : Act V), t.acts[id]? = some act → act.finished = false →
      ∃ k r act', (CState.run ce (sch ++ List.replicate k (.step id)) ⟨m, []⟩).acts[id]? = some act' ∧
        act'.pc = .done r ∧ seq.1[id]? = some (.value r) := by
  simp only
  intro id act hact hf
  have h := linv_run hsh sch ⟨m, []⟩ hi (LInv.init (sorted_run env sts ops) hsh)
  obtain ⟨r, m', hfin, ho, _⟩ := h.pend id act hact hf
  obtain ⟨k, act', hd, hr⟩ := finishes_run hfin _ hact
  refine ⟨k, r, act', ?_, hd, ho⟩
  have : CState.run ce (sch ++ List.replicate k (.step id)) ⟨m, []⟩ =
      ⟨m', (CState.run ce sch ⟨m, []⟩).acts.set id act'⟩ := by
    rw [← hr]
    simp only [CState.run, List.foldl_append]
  rw [this, acts_set hact, if_pos rfl]

/-- No two calls overlap: a call begins only when all others are over. -/
def Serial (ce : CEnv V) (s : Sys V) (num : Nat → MockFn) : List (Sched V) → CState V → Prop
  | [], _ => True
  | .step id :: xs, t => Serial ce s num xs (t.step ce (.step id))
  | .start n tid args :: xs, t =>
    ((num n).slot s ≠ none ∧ ∀ act ∈ t.acts, act.finished = true) ∧
    Serial ce s num xs (t.step ce (.start n tid args))

/-- **C85, one call at a time.**  Any number of threads, but calls that do not overlap, to any methods: the
threads see what one thread would see. -/
theorem C85_serial (env : Env V) (sts : List (MethodInfo V)) (ops : List (Op V)) (num : Nat → MockFn)
    (ce : CEnv V) (m : Mem V) (hsh : Shared env (Sys.run env ops (Sys.init sts)).2 num ce m)
    (sch : List (Sched V)) (hs : Serial ce (Sys.run env ops (Sys.init sts)).2 num sch ⟨m, []⟩) :
    let t := CState.run ce sch ⟨m, []⟩
    let seq := Sys.run env (t.acts.map (asOp num)) (Sys.run env ops (Sys.init sts)).2
    (∀ (id : Nat) (act : Act V) (r : Except Panic V), t.acts[id]? = some act → act.pc = .done r →
      seq.1[id]? = some (.value r)) ∧
    ((∀ act ∈ t.acts, act.finished = true) → Shared env seq.2 num ce t.mem) := by
  refine C85_linear env sts ops num ce m hsh sch ?_
  generalize (⟨m, []⟩ : CState V) = t at hs
  induction sch generalizing t with
  | nil => trivial
  | cons x xs ih =>
    cases x with
    | step id => exact ih _ hs
    | start n tid args =>
      refine ⟨⟨hs.1.1, fun act ha hf => ?_⟩, ih _ hs.2⟩
      rw [hs.1.2 act ha] at hf; cases hf

/-! ## Every program state can be shared -/

/-- A list of functions to share. -/
def sharedFn (s : Sys V) (fs : List MockFn) (n : Nat) : MockFn := (fs[n]?).getD ⟨s.objs.length, 0, 0⟩

/-- The expectations on function `n`. -/
def expsAt (s : Sys V) (fs : List MockFn) (n : Nat) : List (Expectation V) :=
  match (sharedFn s fs n).slot s with
  | some sl => expsOf (sharedFn s fs n).key sl.store
  | none => []

/-- Expectation `j` on function `n` has address `j * N + n`, where `N` is the number of functions. -/
def shareEnv (env : Env V) (s : Sys V) (fs : List MockFn) : CEnv V where
  vec n := (List.range (expsAt s fs n).length).map fun j => j * fs.length + n
  info n := match (sharedFn s fs n).slot s with
    | some sl => sl.mi.fn (sharedFn s fs n).key
    | none => ⟨.static, "", "", none⟩
  nightly := env.nightly
  dbg := env.dbg

def shareMem (s : Sys V) (fs : List MockFn) : Mem V where
  heap a := ⟨((expsAt s fs (a % fs.length))[a / fs.length]?).getD (Expectation.new false ⟨.static, "", "", none⟩ 0),
    none, none⟩
  seqs := s.world.seqs
  runs := []

/-- **C85, the hypothesis can be met.**  Any state of a program can be shared, with any list of different
functions of living objects. -/
theorem C85_shareable (env : Env V) (s : Sys V) (fs : List MockFn)
    (hd : ∀ (n n' : Nat) (f g : MockFn) (sl sl' : Slot V), n ≠ n' → fs[n]? = some f → fs[n']? = some g →
      f.slot s = some sl → g.slot s = some sl' → f.Differ g sl) :
    Shared env s (sharedFn s fs) (shareEnv env s fs) (shareMem s fs) := by
  have hlt : ∀ n sl, (sharedFn s fs n).slot s = some sl → ∃ f, fs[n]? = some f ∧ sharedFn s fs n = f ∧ n < fs.length := by
    intro n sl h
    simp only [sharedFn] at h ⊢
    cases hn : fs[n]? with
    | none => simp [hn, MockFn.slot] at h
    | some f => exact ⟨f, rfl, rfl, (List.getElem?_eq_some_iff.mp hn).1⟩
  refine ⟨rfl, rfl, ?_, ?_, ?_, ?_, ?_, ?_, rfl⟩
  · intro n n' sl sl' hne h1 h2
    obtain ⟨f, hf, e1, _⟩ := hlt n sl h1
    obtain ⟨g, hg, e2, _⟩ := hlt n' sl' h2
    rw [e1] at h1 ⊢
    rw [e2] at h2 ⊢
    exact hd n n' f g sl sl' hne hf hg h1 h2
  · intro n sl h
    simp only [shareEnv, h]
  · intro n sl h
    obtain ⟨f, hf, e1, hl⟩ := hlt n sl h
    have he : expsAt s fs n = expsOf (sharedFn s fs n).key sl.store := by simp only [expsAt, h]
    rw [← he]
    simp only [shareEnv, shareMem, List.map_map]
    apply List.ext_getElem?
    intro j
    have hmod : (j * fs.length + n) % fs.length = n := by
      rw [Nat.mul_add_mod_self_right, Nat.mod_eq_of_lt hl]
    have hdiv : (j * fs.length + n) / fs.length = j := by
      rw [Nat.add_comm, Nat.add_mul_div_right _ _ (by omega), Nat.div_eq_of_lt hl, Nat.zero_add]
    rw [List.getElem?_map]
    by_cases hj : j < (expsAt s fs n).length
    · rw [List.getElem?_range hj]
      simp only [Option.map_some, Function.comp_apply, hmod, hdiv, List.getElem?_eq_getElem hj, Option.getD_some]
    · rw [List.getElem?_eq_none (by simpa using hj), List.getElem?_eq_none (by omega)]
      rfl
  · intro n sl h
    obtain ⟨f, hf, e1, hl⟩ := hlt n sl h
    simp only [shareEnv]
    refine List.pairwise_map.mpr (List.nodup_range.imp ?_)
    intro a b hab h
    have := Nat.mul_right_cancel (by omega : 0 < fs.length) (Nat.add_right_cancel h)
    exact hab this
  · intro n n' sl sl' hne h1 h2 a ha hb
    obtain ⟨f, hf, e1, hl⟩ := hlt n sl h1
    obtain ⟨g, hg, e2, hl'⟩ := hlt n' sl' h2
    simp only [shareEnv, List.mem_map] at ha hb
    obtain ⟨j, _, rfl⟩ := ha
    obtain ⟨j', _, hj⟩ := hb
    have := congrArg (· % fs.length) hj
    simp only [Nat.mul_add_mod_self_right, Nat.mod_eq_of_lt hl, Nat.mod_eq_of_lt hl'] at this
    exact hne this.symm
  · intro n sl h a ha
    exact ⟨rfl, rfl⟩

/-! ## An example -/

/-- A method without type arguments that returns an owned value. -/
def linMeth (name : String) : MethodInfo Nat :=
  ⟨false, ⟨.static, name, "MockFoo::" ++ name, none⟩, fun _ => none⟩

/-- Two methods; two expectations on the first, one, in a sequence, on the second. -/
def linOps : List (Op Nat) :=
  [.new [linMeth "f", linMeth "g"], .expect 0 0 0 [.once, .returnConst 1], .expect 0 0 0 [.once, .returnConst 2],
   .expect 0 1 0 [.once, .inSequence 0, .returnConst 3]]

def linEnv : Env Nat := ⟨false, toString, fun g => g⟩

def linSys : Sys Nat := (Sys.run linEnv linOps (Sys.init [])).2

def linFns : List MockFn := [⟨0, 0, 0⟩, ⟨0, 1, 0⟩]

/-- Thread 1 calls `f` while thread 2 calls `g`; then thread 1 calls `f` again. -/
def linSched : List (Sched Nat) :=
  [.start 0 1 [], .start 1 2 []] ++ steps (List.replicate 20 [0, 1]).flatten ++ .start 0 1 [] :: steps (List.replicate 20 2)

/-- Threads 1 and 2 both call `f`, at the same time. -/
def linRace : List (Sched Nat) :=
  [.start 0 1 [], .start 0 2 []] ++ steps ([0, 0, 1, 1] ++ (List.replicate 20 [0, 1]).flatten)

theorem lin_shared : Shared linEnv linSys (sharedFn linSys linFns) (shareEnv linEnv linSys linFns) (shareMem linSys linFns) := by
  refine C85_shareable _ _ _ ?_
  intro n n' f g sl sl' hne hf hg _ _
  match n, n' with
  | 0, 0 => exact absurd rfl hne
  | 0, 1 => cases hf; cases hg; exact .inr (.inl (by decide))
  | 1, 0 => cases hf; cases hg; exact .inr (.inl (by decide))
  | 1, 1 => exact absurd rfl hne
  | n + 2, _ => simp [linFns] at hf
  | _, n + 2 => simp [linFns] at hg

theorem independent_steps {ce : CEnv V} {s : Sys V} {num : Nat → MockFn} {m : Mem V} (l : List Nat)
    (xs : List (Sched V)) (t : CState V) (h : Independent ce s num m xs (t.run ce (l.map .step))) :
    Independent ce s num m (l.map .step ++ xs) t := by
  induction l generalizing t with
  | nil => exact h
  | cons i l ih => exact ih _ h

set_option maxRecDepth 8000 in
/-- The hypotheses of C85 hold of two calls that overlap and of a third one after them, and all three end. -/
theorem C85_inhabited :
    Shared linEnv linSys (sharedFn linSys linFns) (shareEnv linEnv linSys linFns) (shareMem linSys linFns) ∧
    Independent (shareEnv linEnv linSys linFns) linSys (sharedFn linSys linFns) (shareMem linSys linFns) linSched
      ⟨shareMem linSys linFns, []⟩ ∧
    (CState.run (shareEnv linEnv linSys linFns) linSched ⟨shareMem linSys linFns, []⟩).outcomes =
      [some (.ok 1), some (.ok 3), some (.ok 2)] := by
  refine ⟨lin_shared, ?_, by rfl⟩
  refine ⟨⟨by decide +kernel, by simp⟩, ⟨by decide +kernel, ?_⟩, ?_⟩
  · intro act ha _ _
    have : act.meth = 0 := by
      simp only [CState.step, List.all_nil, if_true, List.nil_append, List.mem_singleton] at ha
      rw [ha]; rfl
    rw [this]
    refine ⟨by decide, fun a ha b _ x _ hx _ => ?_⟩
    have hn : ∀ a ∈ (shareEnv linEnv linSys linFns).vec 0,
        ((shareMem linSys linFns).heap a).exp.common.seqHandle = none := by decide +kernel
    rw [hn a ha] at hx
    cases hx
  · refine independent_steps _ _ _ ⟨⟨by decide +kernel, fun act ha hf => ?_⟩, ?_⟩
    · have hall : ∀ t : CState Nat, t.acts.all (·.finished) = true → act ∈ t.acts → act.finished = false → False := by
        intro t h1 h2 h3
        rw [List.all_eq_true.mp h1 act h2] at h3
        cases h3
      exact (hall _ (by rfl) ha hf).elim
    · exact independent_steps (List.replicate 20 2) [] _ trivial

set_option maxRecDepth 8000 in
/-- **C85 needs its hypothesis.**  If calls of the same method overlap, the outcome need not be that of the
calls one after the other, in any order: here one of two calls is rejected, although the two expectations
have room for both. -/
theorem C85_overlap_refuted :
    (CState.run (shareEnv linEnv linSys linFns) linRace ⟨shareMem linSys linFns, []⟩).outcomes =
      [some (.ok 1), some (.error (.call "f" "<anything>" (.tooMany 2 1)))] ∧
    (Sys.run linEnv [.call 0 0 0 1 [] id, .call 0 0 0 2 [] id] linSys).1 = [.value (.ok 1), .value (.ok 2)] ∧
    (Sys.run linEnv [.call 0 0 0 2 [] id, .call 0 0 0 1 [] id] linSys).1 = [.value (.ok 1), .value (.ok 2)] := by
  exact ⟨by rfl, by rfl, by rfl⟩

end Mockall.Props
