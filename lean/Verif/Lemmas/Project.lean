import Verif.Lemmas.Drop
import Verif.Lemmas.Sim
import Verif.Lemmas.Seq

/-! # Helper lemmas: one function of a program on its own -/

set_option linter.unusedSimpArgs false

namespace Mockall

open Spec

variable {V : Type}

/-- Whether an operation on instantiation `k'` of a method concerns instantiation `k`: methods without type parameters
have one instantiation only. -/
def sameKey (generic : Bool) (k k' : Key) : Bool := !generic || k == k'

/-- The operation on function `c` that `op` is, if it is one. -/
def Op.at (c : Callee) (generic : Bool) : Op V → Option (MOp V)
  | .expect o m k bs =>
    match c with
    | .inst o' m' k' => if o = o' ∧ m = m' ∧ sameKey generic k' k then some (.expect bs) else none
    | .stat _ _ => none
  | .call o m k tid args u =>
    match c with
    | .inst o' m' k' => if o = o' ∧ m = m' ∧ sameKey generic k' k then some (.call tid args u) else none
    | .stat _ _ => none
  | .sexpect f k bs =>
    match c with
    | .inst _ _ _ => none
    | .stat f' k' => if f = f' ∧ sameKey generic k' k then some (.expect bs) else none
  | .scall f k tid args =>
    match c with
    | .inst _ _ _ => none
    | .stat f' k' => if f = f' ∧ sameKey generic k' k then some (.call tid args id) else none
  | _ => none

/-- Whether `op` verifies and clears the function `c`. -/
def Op.clears (c : Callee) : Op V → Bool
  | .checkpoint o => match c with | .inst o' _ _ => o == o' | .stat _ _ => false
  | .drop o _ => match c with | .inst o' _ _ => o == o' | .stat _ _ => false
  | .scheckpoint f => match c with | .inst _ _ _ => false | .stat f' _ => f == f'
  | .sdrop f _ => match c with | .inst _ _ _ => false | .stat f' _ => f == f'
  | .mcheckpoint fs => match c with | .inst _ _ _ => false | .stat f' _ => fs.contains f'
  | _ => false

/-- What is seen of an operation on one function. -/
def Obs.at : Obs V → Option (MObs V)
  | .value r => some (.returned r)
  | .unit r _ => some (.expected r)
  | .invalid => none

/-- The observations made of the operations on function `c`. -/
def seenAt (c : Callee) (generic : Bool) : List (Op V) → List (Obs V) → List (MObs V)
  | op :: ops, ob :: obs =>
    match Op.at c generic op with
    | some _ => ob.at.toList ++ seenAt c generic ops obs
    | none => seenAt c generic ops obs
  | _, _ => []

/-! ## Only the sequences used matter -/

/-- Two heaps of sequences with the same contents at the identities in `S`. -/
def Agree (S : Nat → Prop) (q q' : Seqs) : Prop := ∀ sid, S sid → q sid = q' sid

theorem Agree.refl (S : Nat → Prop) (q : Seqs) : Agree S q q := fun _ _ => rfl
theorem Agree.symm {S : Nat → Prop} {q q' : Seqs} (h : Agree S q q') : Agree S q' q := fun s hs => (h s hs).symm
theorem Agree.trans {S : Nat → Prop} {q q' q'' : Seqs} (h : Agree S q q') (h' : Agree S q' q'') : Agree S q q'' :=
  fun s hs => (h s hs).trans (h' s hs)

theorem Agree.set {S : Nat → Prop} {q q' : Seqs} (h : Agree S q q') (i : Nat) (x : SeqState) :
    Agree S (q.set i x) (q'.set i x) := by
  intro s hs
  unfold Seqs.set
  split
  · rfl
  · exact h s hs

theorem Agree.set_out {S : Nat → Prop} (q : Seqs) {i : Nat} (hi : ¬ S i) (x : SeqState) : Agree S (q.set i x) q := by
  intro s hs
  unfold Seqs.set
  split
  · rename_i h; exact absurd (h ▸ hs) hi
  · rfl

/-- The expectation's place in a sequence, if any, is in one of `S`. -/
def Expectation.In (S : Nat → Prop) (e : Expectation V) : Prop := ∀ h, e.common.seqHandle = some h → S h.sid

/-- The builder call places the expectation, if at all, in one of `S`. -/
def Build.In (S : Nat → Prop) (b : Build V) : Prop := ∀ sid, b = .inSequence sid → S sid

theorem Common.call_agree {S : Nat → Prop} (func desc : String) (c : Common V) {q q' : Seqs}
    (hc : ∀ h, c.seqHandle = some h → S h.sid) (h : Agree S q q') :
    (c.call func desc q).1 = (c.call func desc q').1 ∧ (c.call func desc q).2.1 = (c.call func desc q').2.1 ∧
    Agree S (c.call func desc q).2.2 (c.call func desc q').2.2 := by
  unfold Common.call Common.verifySequence Common.satisfySequence Seqs.verify Seqs.satisfy
  rcases hs : c.seqHandle with _ | hd
  · simp only
    repeat' split
    all_goals first | exact ⟨rfl, rfl, h⟩ | simp_all
  · have he := h _ (hc hd hs)
    simp only [he]
    repeat' split
    all_goals first | exact ⟨rfl, rfl, h⟩ | exact ⟨rfl, rfl, h.set _ _⟩ | (simp_all; done) | (simp_all; exact h.set _ _)

theorem Expectation.call_agree {S : Nat → Prop} (cx : Cx V) (info : FnInfo V) (args : List V) (e : Expectation V)
    (he : e.In S) {w w' : World V} (h : Agree S w.seqs w'.seqs) :
    (e.call cx info args w).1 = (e.call cx info args w').1 ∧ (e.call cx info args w).2.1 = (e.call cx info args w').2.1 ∧
    Agree S (e.call cx info args w).2.2.seqs (e.call cx info args w').2.2.seqs := by
  obtain ⟨h1, h2, h3⟩ := Common.call_agree info.funcname (callDesc cx info args) e.common he h
  unfold Expectation.call
  rcases hc : e.common.call info.funcname (callDesc cx info args) w.seqs with ⟨r, c, q⟩
  rcases hc' : e.common.call info.funcname (callDesc cx info args) w'.seqs with ⟨r', c', q'⟩
  rw [hc, hc'] at h1 h2 h3
  simp only at h1 h2 h3
  subst h1 h2
  cases r with
  | error p => exact ⟨rfl, rfl, h3⟩
  | ok u =>
    simp only [Expectation.ret_call]
    repeat' split
    all_goals first | exact ⟨rfl, rfl, h3⟩ | simp_all

theorem Expectation.matches_seq (tid : Nat) (e : Expectation V) (args : List V) :
    (e.matches tid args).2.common.seqHandle = e.common.seqHandle := by
  unfold Expectation.matches Common.matches
  simp only
  repeat' split
  all_goals rfl

theorem callScan_in {S : Nat → Prop} (cx : Cx V) (info : FnInfo V) (args : List V) (n : Nat) (es : List (Expectation V))
    (w : World V) (h : ∀ e ∈ es, e.In S) : ∀ e ∈ (callScan cx info args n es w).2.1, e.In S := by
  induction es with
  | nil => simp [callScan]
  | cons e es ih =>
    have ih := ih (fun e he => h e (by simp [he]))
    have hm : ∀ e', (e.matches cx.tid args).2 = e' → e'.In S := by
      rintro _ rfl
      unfold Expectation.In
      rw [Expectation.matches_seq]
      exact h e (by simp)
    have hes : ∀ e' ∈ es, e'.In S := fun e he => h e (by simp [he])
    simp only [callScan]
    rcases hme : e.matches cx.tid args with ⟨_ | _ | _, e'⟩
    · intro x hx
      rcases List.mem_cons.mp hx with rfl | hx
      · exact hm _ (by rw [hme])
      · exact hes x hx
    · intro x hx
      rcases List.mem_cons.mp hx with rfl | hx
      · exact hm _ (by rw [hme])
      · exact ih x hx
    · simp only
      have he' := hm e' (by rw [hme])
      rcases e'.isDone with p | d
      · intro x hx
        rcases List.mem_cons.mp hx with rfl | hx
        · exact he'
        · exact hes x hx
      · simp only
        split
        · have hF := Expectation.call_frame cx info args e' w
          rcases hc : e'.call cx info args w with ⟨r, x, w2⟩
          rw [hc] at hF
          simp only at hF
          have hx : x.In S := by
            unfold Expectation.In
            rw [hF]
            exact he'
          cases r <;>
          · intro y hy
            rcases List.mem_cons.mp hy with rfl | hy
            · exact hx
            · exact hes y hy
        · intro x hx
          rcases List.mem_cons.mp hx with rfl | hx
          · exact he'
          · exact ih x hx

theorem callScan_agree {S : Nat → Prop} (cx : Cx V) (info : FnInfo V) (args : List V) (n : Nat) (es : List (Expectation V))
    (hes : ∀ e ∈ es, e.In S) {w w' : World V} (h : Agree S w.seqs w'.seqs) :
    (callScan cx info args n es w).1 = (callScan cx info args n es w').1 ∧
    (callScan cx info args n es w).2.1 = (callScan cx info args n es w').2.1 ∧
    Agree S (callScan cx info args n es w).2.2.seqs (callScan cx info args n es w').2.2.seqs := by
  induction es with
  | nil => exact ⟨rfl, rfl, h⟩
  | cons e es ih =>
    have ih := ih (fun e he => hes e (by simp [he]))
    simp only [callScan]
    rcases hm : e.matches cx.tid args with ⟨_ | _ | _, e'⟩
    · exact ⟨rfl, rfl, h⟩
    · exact ⟨ih.1, by rw [ih.2.1], ih.2.2⟩
    · simp only
      have he' : e'.In S := by
        have := Expectation.matches_seq cx.tid e args
        rw [hm] at this
        unfold Expectation.In
        simp only at this
        rw [this]
        exact hes e (by simp)
      rcases e'.isDone with p | d
      · exact ⟨rfl, rfl, h⟩
      · simp only
        split
        · obtain ⟨h1, h2, h3⟩ := e'.call_agree cx info args he' h
          rcases hc : e'.call cx info args w with ⟨r, x, w2⟩
          rcases hc' : e'.call cx info args w' with ⟨r', x', w2'⟩
          rw [hc, hc'] at h1 h2 h3
          simp only at h1 h2 h3
          subst h1 h2
          cases r <;> exact ⟨rfl, rfl, h3⟩
        · exact ⟨ih.1, by rw [ih.2.1], ih.2.2⟩

theorem AllSim.in {S : Nat → Prop} {er : String → String} {a b : List (Expectation V)} (h : AllSim er a b)
    (ha : ∀ e ∈ a, e.In S) : ∀ e ∈ b, e.In S := by
  induction h with
  | nil => simp
  | cons hx _ ih =>
    intro e he
    rcases List.mem_cons.mp he with rfl | he
    · unfold Expectation.In
      rw [← hx.seq]; exact ha _ (by simp)
    · exact ih (fun e h => ha e (by simp [h])) e he

/-- Related lists and sequences: related outcomes. -/
theorem AllSim.scan_agree {S : Nat → Prop} (cx : Cx V) (info : FnInfo V) (args : List V) {a b : List (Expectation V)}
    {w w' : World V} (h : AllSim id a b) (ha : ∀ e ∈ a, e.In S) (hw : Agree S w.seqs w'.seqs) :
    (Expectations.call cx info args a w).1 = (Expectations.call cx info args b w').1 ∧
    AllSim id (Expectations.call cx info args a w).2.1 (Expectations.call cx info args b w').2.1 ∧
    Agree S (Expectations.call cx info args a w).2.2.seqs (Expectations.call cx info args b w').2.2.seqs := by
  unfold Expectations.call
  rw [h.length]
  have hs := h.scan cx info args b.length (World.Sim.refl w)
  obtain ⟨h1, h2, h3⟩ := callScan_agree cx info args b.length b (h.in ha) hw
  have hr := hs.res
  simp only [mapErr_id] at hr
  exact ⟨hr.trans h1, h2 ▸ hs.list, (hs.world.seqs ▸ h3 :)⟩

theorem Expectation.build_agree {S : Nat → Prop} {b : Build V} (hb : b.In S) (e : Expectation V) {q q' : Seqs}
    (h : Agree S q q') :
    (e.build b q).1 = (e.build b q').1 ∧ (e.build b q).2.1 = (e.build b q').2.1 ∧
    Agree S (e.build b q).2.2 (e.build b q').2.2 := by
  cases b with
  | inSequence sid =>
    have he := h sid (hb sid rfl)
    simp only [Expectation.build, Common.inSequence, Seqs.nextHandle, he]
    split
    · exact ⟨rfl, rfl, h.set _ _⟩
    · exact ⟨rfl, rfl, h⟩
  | _ =>
    simp only [Expectation.build]
    repeat' split
    all_goals first | exact ⟨rfl, rfl, h⟩ | simp_all

theorem Expectation.builds_agree {S : Nat → Prop} {bs : List (Build V)} (hb : ∀ b ∈ bs, b.In S) (e : Expectation V)
    {q q' : Seqs} (h : Agree S q q') :
    (e.builds bs q).1 = (e.builds bs q').1 ∧ (e.builds bs q).2.1 = (e.builds bs q').2.1 ∧
    Agree S (e.builds bs q).2.2 (e.builds bs q').2.2 := by
  induction bs generalizing e q q' with
  | nil => exact ⟨rfl, rfl, h⟩
  | cons b bs ih =>
    obtain ⟨h1, h2, h3⟩ := e.build_agree (hb b (by simp)) h
    unfold Expectation.builds
    rcases hc : e.build b q with ⟨r, x, q2⟩
    rcases hc' : e.build b q' with ⟨r', x', q2'⟩
    rw [hc, hc'] at h1 h2 h3
    simp only at h1 h2 h3
    subst h1 h2
    cases r with
    | error p => exact ⟨rfl, rfl, h3⟩
    | ok u => exact ih (fun b hb' => hb b (by simp [hb'])) _ h3

theorem Expectation.build_in {S : Nat → Prop} {b : Build V} (hb : b.In S) (e : Expectation V) (he : e.In S) (q : Seqs) :
    (e.build b q).2.1.In S := by
  unfold Expectation.In at *
  cases b with
  | inSequence sid =>
    simp only [Expectation.build, Common.inSequence, Seqs.nextHandle]
    split
    · intro h hh
      simp at hh
      subst hh
      exact hb sid rfl
    · exact he
  | _ =>
    simp only [Expectation.build, Expectation.setMatcher, Expectation.setStatic]
    repeat' split
    all_goals first | exact he | simp_all

theorem Expectation.builds_in {S : Nat → Prop} {bs : List (Build V)} (hb : ∀ b ∈ bs, b.In S) (e : Expectation V)
    (he : e.In S) (q : Seqs) : (e.builds bs q).2.1.In S := by
  induction bs generalizing e q with
  | nil => exact he
  | cons b bs ih =>
    have h1 := e.build_in (hb b (by simp)) he q
    unfold Expectation.builds
    rcases hc : e.build b q with ⟨r, x, q2⟩
    rw [hc] at h1
    cases r with
    | error p => exact h1
    | ok u => exact ih (fun b hb' => hb b (by simp [hb'])) { x with chain := e.chain ++ [b] } h1 q2

theorem Expectation.new_in {S : Nat → Prop} (nightly : Bool) (info : FnInfo V) (g : Nat) :
    (Expectation.new nightly info g).In S := by
  intro h hh
  simp [Expectation.new, Common.dflt] at hh

/-! ## Others do not touch them -/

theorem Expectation.build_outside {S : Nat → Prop} {b : Build V} (hb : b.In fun s => ¬ S s) (e : Expectation V)
    (q : Seqs) : Agree S (e.build b q).2.2 q := by
  cases b with
  | inSequence sid =>
    simp only [Expectation.build, Common.inSequence, Seqs.nextHandle]
    split
    · exact Agree.set_out _ (hb sid rfl) _
    · exact Agree.refl _ _
  | _ =>
    simp only [Expectation.build]
    repeat' split
    all_goals first | exact Agree.refl _ _ | simp_all

theorem Expectation.builds_outside {S : Nat → Prop} {bs : List (Build V)} (hb : ∀ b ∈ bs, b.In fun s => ¬ S s)
    (e : Expectation V) (q : Seqs) : Agree S (e.builds bs q).2.2 q := by
  induction bs generalizing e q with
  | nil => exact Agree.refl _ _
  | cons b bs ih =>
    have h1 := e.build_outside (hb b (by simp)) q
    unfold Expectation.builds
    rcases hc : e.build b q with ⟨r, x, q2⟩
    rw [hc] at h1
    cases r with
    | error p => exact h1
    | ok u => exact (ih (fun b hb' => hb b (by simp [hb'])) _ _).trans h1

theorem callScan_outside {S : Nat → Prop} (cx : Cx V) (info : FnInfo V) (args : List V) (n : Nat)
    (es : List (Expectation V)) (w : World V) (h : ∀ e ∈ es, e.In fun s => ¬ S s) :
    Agree S (callScan cx info args n es w).2.2.seqs w.seqs := by
  have hE := callScan_evo cx info args n es w
  generalize callScan cx info args n es w = o at *
  generalize o.1 = r at *
  generalize o.2.1 = l' at *
  generalize o.2.2 = w' at *
  cases hE with
  | none => exact Agree.refl _ _
  | early => exact Agree.refl _ _
  | pred => exact Agree.refl _ _
  | @hit e l' r hc hm hr =>
    obtain ⟨l1, l2, rfl, rfl⟩ := hc
    obtain ⟨b, _, hw⟩ := Expectation.call_world cx info args e w
    rw [hw]
    rcases Common.call_seqs info.funcname (callDesc cx info args) e.common w.seqs with hq | ⟨hd, hh, hq⟩
    · rw [hq]; exact Agree.refl _ _
    · rw [hq]
      exact Agree.set_out _ (h e (by simp) hd hh) _

/-! ## One step, seen from one function -/

theorem Store.expect_target (nightly : Bool) (mi : MethodInfo V) (k : Key) (bs : List (Build V)) (st : Store V)
    (w : World V) :
    let r := Expectations.expect nightly (mi.fn k) bs (st.target k) w
    (st.expect nightly mi k bs w).1 = r.1 ∧ (st.expect nightly mi k bs w).2.2 = r.2.2 ∧
    (st.expect nightly mi k bs w).2.1.target k = r.2.1 := by
  cases st with
  | concrete es => exact ⟨rfl, rfl, rfl⟩
  | generic m =>
    simp only [Store.expect, Store.target, GMap.get_put_same, Option.getD_some, and_self]

theorem Store.expect_target_other (nightly : Bool) (mi : MethodInfo V) {k k' : Key} (h : k ≠ k') (bs : List (Build V))
    (m : GMap V) (w : World V) :
    (Store.expect nightly mi k bs (.generic m) w).2.1.target k' = Store.target k' (.generic m) := by
  simp only [Store.expect, Store.target, GMap.get_put_other m h]

theorem sameKey_false {g : Bool} {k k' : Key} (h : sameKey g k k' = false) : g = true ∧ k' ≠ k := by
  simp [sameKey] at h
  exact ⟨h.1, fun e => h.2 e.symm⟩

/-- Operations on other instantiations leave the list of this one alone. -/
theorem Store.other {g : Bool} {st : Store V} (hg : st.isGeneric = g) {k k' : Key} (h : sameKey g k k' = false)
    (mi : MethodInfo V) :
    (∀ cx args w, (st.call cx mi k' args w).2.1.target k = st.target k) ∧
    (∀ nightly bs w, (st.expect nightly mi k' bs w).2.1.target k = st.target k) := by
  obtain ⟨h1, h2⟩ := sameKey_false h
  cases st with
  | concrete es => subst h1; simp [Store.isGeneric] at hg
  | generic m =>
    exact ⟨fun cx args w => Store.call_target_other cx mi h2 args m w, fun n bs w => Store.expect_target_other n mi h2 bs m w⟩

/-- Instantiations that are the same for the store. -/
theorem Store.same {g : Bool} {st : Store V} {mi : MethodInfo V} (hg : st.isGeneric = g) (hm : mi.generic = g)
    {k k' : Key} (h : sameKey g k k' = true) : st.target k' = st.target k ∧ mi.fn k' = mi.fn k ∧
    (∀ st' : Store V, st'.isGeneric = g → st'.target k' = st'.target k) := by
  simp only [sameKey, Bool.or_eq_true, Bool.not_eq_true', beq_iff_eq] at h
  rcases h with h | h
  · subst h
    refine ⟨?_, MethodInfo.fn_concrete hm _ _, ?_⟩
    · cases st with
      | concrete es => rfl
      | generic m => simp [Store.isGeneric] at hg
    · intro st' hst
      cases st' with
      | concrete es => rfl
      | generic m => simp [Store.isGeneric] at hst
  · subst h
    exact ⟨rfl, rfl, fun _ _ => rfl⟩

theorem Store.expect_isGeneric (nightly : Bool) (mi : MethodInfo V) (k : Key) (bs : List (Build V)) (s : Store V)
    (w : World V) : (s.expect nightly mi k bs w).2.1.isGeneric = s.isGeneric := by
  cases s <;> rfl

/-- `infoOf` and `target` of an instance method depend only on its slot. -/
theorem inst_slot {s : Sys V} {o m : Nat} {k : Key} {mi : MethodInfo V} (h : s.infoOf (.inst o m k) = some mi) :
    ∃ obj sl, s.objs[o]? = some (some obj) ∧ obj[m]? = some sl ∧ sl.mi = mi := by
  simp only [Sys.infoOf] at h
  rcases ho : s.objs[o]? with _ | _ | obj
  · simp [ho] at h
  · simp [ho] at h
  · rw [ho] at h
    simp only at h
    rcases hm : obj[m]? with _ | sl
    · simp [hm] at h
    · rw [hm] at h
      simp at h
      exact ⟨obj, sl, rfl, hm, h⟩

theorem stat_slot {s : Sys V} {f : Nat} {k : Key} {mi : MethodInfo V} (h : s.infoOf (.stat f k) = some mi) :
    ∃ sf, s.statics[f]? = some sf ∧ sf.mi = mi := by
  simp only [Sys.infoOf] at h
  rcases hf : s.statics[f]? with _ | sf
  · simp [hf] at h
  · rw [hf] at h
    simp at h
    exact ⟨sf, rfl, h⟩

theorem checkpointModule_other (env : Env V) (fs : List Nat) (sts : List (StaticFn V)) (f : Nat) (hf : fs.contains f = false) :
    (checkpointModule env fs sts).2[f]? = sts[f]? := by
  induction fs generalizing sts with
  | nil => rfl
  | cons i fs ih =>
    simp only [List.contains_cons, Bool.or_eq_false_iff, beq_eq_false_iff_ne] at hf
    unfold checkpointModule
    rcases sts[i]? with _ | sf
    · rfl
    · simp only
      have hs : (sts.set i (sf.checkpoint env false).2)[f]? = sts[f]? := List.getElem?_set_ne (fun h => hf.1 h.symm)
      split
      · exact hs
      · rw [ih _ hf.2, hs]

/-- Steps that are not about function `c` leave it alone. -/
theorem step_other (env : Env V) (s : Sys V) (hs : s.Sorted env.nightly) (c : Callee) (mi : MethodInfo V)
    (hi : s.infoOf c = some mi) (op : Op V) (hat : Op.at c mi.generic op = none) (hcl : op.clears c = false) :
    (s.step env op).2.infoOf c = some mi ∧ (s.step env op).2.target c = s.target c := by
  cases c with
  | inst o m k =>
    obtain ⟨obj, sl, ho, hm, rfl⟩ := inst_slot hi
    have hlt : o < s.objs.length := (List.getElem?_eq_some_iff.mp ho).1
    have hml : m < obj.length := (List.getElem?_eq_some_iff.mp hm).1
    have hgen := ((hs.objs o obj ho) m sl hm).generic
    -- it is enough to look at the object
    suffices h : ∃ obj' sl', (s.step env op).2.objs[o]? = some (some obj') ∧ obj'[m]? = some sl' ∧ sl'.mi = sl.mi ∧
        sl'.store.target k = sl.store.target k by
      obtain ⟨obj', sl', h1, h2, h3, h4⟩ := h
      simp only [Sys.infoOf, Sys.target, h1, h2, ho, hm, Option.map_some, h3, h4]
      exact ⟨trivial, trivial⟩
    have hkeep : ∀ s' : Sys V, s'.objs[o]? = s.objs[o]? → ∃ obj' sl', s'.objs[o]? = some (some obj') ∧ obj'[m]? = some sl' ∧ sl'.mi = sl.mi ∧
        sl'.store.target k = sl.store.target k := fun s' h => ⟨obj, sl, by rw [h, ho], hm, rfl, rfl⟩
    cases op with
    | new ms => exact hkeep _ (by simp only [Sys.step]; rw [List.getElem?_append_left hlt])
    | expect i j k' bs =>
      by_cases hio : i = o
      · subst hio
        simp only [Sys.step, ho, Obj.expect]
        rcases hj : obj[j]? with _ | sl'
        · simp only [hj]; exact hkeep _ rfl
        · simp only [hj, List.getElem?_set_self hlt]
          by_cases hjm : j = m
          · subst hjm
            rw [hm] at hj
            cases hj
            refine ⟨_, _, rfl, List.getElem?_set_self hml, rfl, ?_⟩
            simp [Op.at] at hat
            exact (Store.other hgen hat sl.mi).2 _ _ _
          · exact ⟨_, sl, rfl, by rw [List.getElem?_set_ne hjm]; exact hm, rfl, rfl⟩
      · refine hkeep _ ?_
        simp only [Sys.step]
        repeat' split
        all_goals first | rfl | exact List.getElem?_set_ne hio
    | call i j k' tid args u =>
      by_cases hio : i = o
      · subst hio
        simp only [Sys.step, ho, Obj.call]
        rcases hj : obj[j]? with _ | sl'
        · simp only [hj]; exact hkeep _ rfl
        · simp only [hj, List.getElem?_set_self hlt]
          by_cases hjm : j = m
          · subst hjm
            rw [hm] at hj
            cases hj
            refine ⟨_, _, rfl, List.getElem?_set_self hml, rfl, ?_⟩
            simp [Op.at] at hat
            exact (Store.other hgen hat sl.mi).1 _ _ _
          · exact ⟨_, sl, rfl, by rw [List.getElem?_set_ne hjm]; exact hm, rfl, rfl⟩
      · refine hkeep _ ?_
        simp only [Sys.step]
        repeat' split
        all_goals first | rfl | exact List.getElem?_set_ne hio
    | checkpoint i =>
      simp [Op.clears] at hcl
      refine hkeep _ ?_
      simp only [Sys.step]
      repeat' split
      all_goals first | rfl | exact List.getElem?_set_ne hcl
    | drop i pk =>
      simp [Op.clears] at hcl
      refine hkeep _ ?_
      simp only [Sys.step]
      repeat' split
      all_goals first | rfl | exact List.getElem?_set_ne hcl
    | sexpect f k' bs => refine hkeep _ ?_; simp only [Sys.step]; split <;> rfl
    | scall f k' tid args => refine hkeep _ ?_; simp only [Sys.step]; split <;> rfl
    | scheckpoint f => refine hkeep _ ?_; simp only [Sys.step]; split <;> rfl
    | sdrop f pk => refine hkeep _ ?_; simp only [Sys.step]; split <;> rfl
    | mcheckpoint fs => exact hkeep _ rfl
  | stat f k =>
    obtain ⟨sf, hf, rfl⟩ := stat_slot hi
    have hlt : f < s.statics.length := (List.getElem?_eq_some_iff.mp hf).1
    have hgen := (hs.statics f sf hf).generic
    suffices h : ∃ sf', (s.step env op).2.statics[f]? = some sf' ∧ sf'.mi = sf.mi ∧
        sf'.store.target k = sf.store.target k by
      obtain ⟨sf', h1, h3, h4⟩ := h
      simp only [Sys.infoOf, Sys.target, h1, hf, Option.map_some, h3, h4]
      exact ⟨trivial, trivial⟩
    have hkeep : ∀ s' : Sys V, s'.statics[f]? = s.statics[f]? → ∃ sf', s'.statics[f]? = some sf' ∧ sf'.mi = sf.mi ∧
        sf'.store.target k = sf.store.target k := fun s' h => ⟨sf, by rw [h, hf], rfl, rfl⟩
    cases op with
    | new ms => exact hkeep _ rfl
    | expect i j k' bs => refine hkeep _ ?_; simp only [Sys.step]; repeat' split
                          all_goals rfl
    | call i j k' tid args u => refine hkeep _ ?_; simp only [Sys.step]; repeat' split
                                all_goals rfl
    | checkpoint i => refine hkeep _ ?_; simp only [Sys.step]; repeat' split
                      all_goals rfl
    | drop i pk => refine hkeep _ ?_; simp only [Sys.step]; repeat' split
                   all_goals rfl
    | sexpect i k' bs =>
      by_cases hif : i = f
      · subst hif
        simp only [Sys.step, hf, StaticFn.expect]
        split
        · exact ⟨sf, List.getElem?_set_self hlt, rfl, rfl⟩
        · refine ⟨_, List.getElem?_set_self hlt, rfl, ?_⟩
          simp [Op.at] at hat
          exact (Store.other hgen hat sf.mi).2 _ _ _
      · refine hkeep _ ?_
        simp only [Sys.step]
        split
        · exact List.getElem?_set_ne hif
        · rfl
    | scall i k' tid args =>
      by_cases hif : i = f
      · subst hif
        simp only [Sys.step, hf, StaticFn.call]
        split
        · exact ⟨sf, List.getElem?_set_self hlt, rfl, rfl⟩
        · refine ⟨_, List.getElem?_set_self hlt, rfl, ?_⟩
          simp [Op.at] at hat
          exact (Store.other hgen hat sf.mi).1 _ _ _
      · refine hkeep _ ?_
        simp only [Sys.step]
        split
        · exact List.getElem?_set_ne hif
        · rfl
    | scheckpoint i =>
      simp [Op.clears] at hcl
      refine hkeep _ ?_
      simp only [Sys.step]
      split
      · exact List.getElem?_set_ne hcl
      · rfl
    | sdrop i pk =>
      simp [Op.clears] at hcl
      refine hkeep _ ?_
      simp only [Sys.step]
      split
      · exact List.getElem?_set_ne hcl
      · rfl
    | mcheckpoint fs =>
      refine hkeep _ ?_
      simp only [Sys.step]
      exact checkpointModule_other env fs _ f hcl

/-- A step that is about function `c` acts on its list alone. -/
theorem step_at (env : Env V) (s : Sys V) (hs : s.Sorted env.nightly) (c : Callee) (mi : MethodInfo V)
    (hu : s.usable c mi) (op : Op V) (mop : MOp V) (hat : Op.at c mi.generic op = some mop) :
    let r := MState.step env.nightly env.dbg (mi.fn c.key) ⟨s.target c, s.world⟩ mop
    (s.step env op).1.at = some r.1 ∧ (s.step env op).2.target c = r.2.exps ∧ (s.step env op).2.world = r.2.world ∧
    (s.step env op).2.infoOf c = some mi := by
  obtain ⟨hi, hp⟩ := hu
  cases c with
  | inst o m k =>
    obtain ⟨obj, sl, ho, hm, rfl⟩ := inst_slot hi
    have hlt : o < s.objs.length := (List.getElem?_eq_some_iff.mp ho).1
    have hml : m < obj.length := (List.getElem?_eq_some_iff.mp hm).1
    have hgen := ((hs.objs o obj ho) m sl hm).generic
    have ht : s.target (.inst o m k) = sl.store.target k := by simp [Sys.target, ho, hm]
    cases op <;> simp [Op.at] at hat
    case expect i j k' bs =>
      obtain ⟨⟨rfl, rfl, hk⟩, rfl⟩ := hat
      obtain ⟨h1, h2, h3⟩ := Store.same hgen rfl hk
      obtain ⟨e1, e2, e3⟩ := Store.expect_target env.nightly sl.mi k' bs sl.store s.world
      rw [h1, h2] at e1 e2 e3
      have hk3 := h3 _ ((Store.expect_isGeneric env.nightly sl.mi k' bs sl.store s.world).trans hgen)
      simp only [Sys.step, ho, Obj.expect, hm, MState.step, ht, Callee.key, Obs.at]
      refine ⟨by rw [e1], ?_, e2, ?_⟩
      · simp only [Sys.target, List.getElem?_set_self hlt, List.getElem?_set_self hml]
        rw [← hk3, e3]
      · simp only [Sys.infoOf, List.getElem?_set_self hlt, List.getElem?_set_self hml]
        rfl
    case call i j k' tid args u =>
      obtain ⟨⟨rfl, rfl, hk⟩, rfl⟩ := hat
      obtain ⟨h1, h2, h3⟩ := Store.same hgen rfl hk
      obtain ⟨e1, e2, e3⟩ := Store.call_target ⟨env.nightly, tid, env.dbg, u⟩ sl.mi k' args sl.store s.world
      rw [h1, h2] at e1 e2 e3
      have hk3 := h3 _ ((Store.call_isGeneric ⟨env.nightly, tid, env.dbg, u⟩ sl.mi k' args sl.store s.world).trans hgen)
      simp only [Sys.step, ho, Obj.call, hm, MState.step, ht, Callee.key, Obs.at, Expectations.method]
      refine ⟨by rw [e1, h2], ?_, e2, ?_⟩
      · simp only [Sys.target, List.getElem?_set_self hlt, List.getElem?_set_self hml]
        rw [← hk3, e3]
      · simp only [Sys.infoOf, List.getElem?_set_self hlt, List.getElem?_set_self hml]
        rfl
  | stat f k =>
    obtain ⟨sf, hf, rfl⟩ := stat_slot hi
    have hlt : f < s.statics.length := (List.getElem?_eq_some_iff.mp hf).1
    have hgen := (hs.statics f sf hf).generic
    have hpo := hp sf hf
    have ht : s.target (.stat f k) = sf.store.target k := by simp [Sys.target, hf]
    cases op <;> simp [Op.at] at hat
    case sexpect i k' bs =>
      obtain ⟨⟨rfl, hk⟩, rfl⟩ := hat
      obtain ⟨h1, h2, h3⟩ := Store.same hgen rfl hk
      obtain ⟨e1, e2, e3⟩ := Store.expect_target env.nightly sf.mi k' bs sf.store s.world
      rw [h1, h2] at e1 e2 e3
      have hk3 := h3 _ ((Store.expect_isGeneric env.nightly sf.mi k' bs sf.store s.world).trans hgen)
      simp only [Sys.step, hf, StaticFn.expect, hpo, Bool.false_eq_true, ↓reduceIte, MState.step, ht, Callee.key, Obs.at]
      refine ⟨by rw [e1], ?_, e2, ?_⟩
      · simp only [Sys.target, List.getElem?_set_self hlt]
        rw [← hk3, e3]
      · simp only [Sys.infoOf, List.getElem?_set_self hlt]
        rfl
    case scall i k' tid args =>
      obtain ⟨⟨rfl, hk⟩, rfl⟩ := hat
      obtain ⟨h1, h2, h3⟩ := Store.same hgen rfl hk
      obtain ⟨e1, e2, e3⟩ := Store.call_target ⟨env.nightly, tid, env.dbg, id⟩ sf.mi k' args sf.store s.world
      rw [h1, h2] at e1 e2 e3
      have hk3 := h3 _ ((Store.call_isGeneric ⟨env.nightly, tid, env.dbg, id⟩ sf.mi k' args sf.store s.world).trans hgen)
      simp only [Sys.step, hf, StaticFn.call, hpo, Bool.false_eq_true, ↓reduceIte, MState.step, ht, Callee.key, Obs.at,
        Expectations.method]
      refine ⟨by rw [e1, h2], ?_, e2, ?_⟩
      · simp only [Sys.target, List.getElem?_set_self hlt]
        rw [← hk3, e3]
      · simp only [Sys.infoOf, List.getElem?_set_self hlt]
        rfl

/-! ## Which sequences the expectations on a function are in -/

theorem Store.call_in {T : Nat → Prop} {st : Store V} (cx : Cx V) (mi : MethodInfo V) (hg : st.isGeneric = mi.generic)
    (k k' : Key) (args : List V) (w : World V) (h : ∀ e ∈ st.target k, e.In T) :
    ∀ e ∈ (st.call cx mi k' args w).2.1.target k, e.In T := by
  rcases hk : sameKey mi.generic k k' with _ | _
  · rw [(Store.other hg hk mi).1]; exact h
  · obtain ⟨h1, h2, h3⟩ := Store.same hg rfl hk
    rw [← h3 _ ((Store.call_isGeneric cx mi k' args st w).trans hg), (Store.call_target cx mi k' args st w).2.2, h1]
    exact callScan_in cx _ args _ _ w h

theorem Store.expect_in {T : Nat → Prop} {st : Store V} (nightly : Bool) (mi : MethodInfo V)
    (hg : st.isGeneric = mi.generic) (k k' : Key) (bs : List (Build V)) (w : World V) (h : ∀ e ∈ st.target k, e.In T)
    (hb : sameKey mi.generic k k' = true → ∀ b ∈ bs, b.In T) :
    ∀ e ∈ (st.expect nightly mi k' bs w).2.1.target k, e.In T := by
  rcases hk : sameKey mi.generic k k' with _ | _
  · rw [(Store.other hg hk mi).2]; exact h
  · obtain ⟨h1, h2, h3⟩ := Store.same hg rfl hk
    rw [← h3 _ ((Store.expect_isGeneric nightly mi k' bs st w).trans hg), (Store.expect_target nightly mi k' bs st w).2.2, h1]
    intro e he
    simp only [Expectations.expect, List.mem_append, List.mem_singleton] at he
    rcases he with he | rfl
    · exact h e he
    · exact Expectation.builds_in (hb hk) _ (Expectation.new_in _ _ _) _

theorem Store.new_target (mi : MethodInfo V) (k : Key) : (Store.new mi).target k = [] := by
  unfold Store.new
  split <;> simp [Store.target, GMap.get]

theorem Store.drained_target (st : Store V) (k : Key) : st.drained.target k = [] := by
  cases st <;> simp [Store.drained, Store.target, GMap.get]

theorem Obj.checkpoint_slot (env : Env V) (obj : Obj V) {m : Nat} {sl : Slot V}
    (h : (obj.checkpoint env false).2[m]? = some sl) (k : Key) :
    sl.store.target k = [] ∨ obj[m]? = some sl := by
  induction obj generalizing m with
  | nil => simp [Obj.checkpoint] at h
  | cons s ss ih =>
    simp only [Obj.checkpoint] at h
    rcases hd : dropAll false s.mi.base (s.store.elems env) with ⟨_ | ⟨⟩, ab⟩
    · rw [hd] at h
      cases m with
      | zero => simp at h; subst h; left; exact Store.drained_target _ _
      | succ m => right; simpa using h
    · rw [hd] at h
      cases m with
      | zero => simp at h; subst h; left; exact Store.drained_target _ _
      | succ m => simp at h ⊢; exact ih h

theorem StaticFn.checkpoint_target (env : Env V) (sf : StaticFn V) (k : Key) :
    (sf.checkpoint env false).2.store.target k = [] ∨ (sf.checkpoint env false).2 = sf := by
  unfold StaticFn.checkpoint
  split
  · right; rfl
  · left; exact Store.drained_target _ _

theorem StaticFn.dropContext_target (env : Env V) (pk : Bool) (sf : StaticFn V) (k : Key) :
    (sf.dropContext env pk).2.store.target k = [] ∨ (sf.dropContext env pk).2 = sf := by
  unfold StaticFn.dropContext
  split
  · left; exact Store.drained_target _ _
  · exact StaticFn.checkpoint_target env sf k

theorem checkpointModule_target (env : Env V) (fs : List Nat) (sts : List (StaticFn V)) {f : Nat} {sf : StaticFn V}
    (h : (checkpointModule env fs sts).2[f]? = some sf) (k : Key) :
    sf.store.target k = [] ∨ sts[f]? = some sf := by
  induction fs generalizing sts with
  | nil => right; exact h
  | cons i fs ih =>
    unfold checkpointModule at h
    rcases hi : sts[i]? with _ | si
    · rw [hi] at h; right; exact h
    · rw [hi] at h
      have hset : ∀ sf', (sts.set i (si.checkpoint env false).2)[f]? = some sf' →
          sf'.store.target k = [] ∨ sts[f]? = some sf' := by
        intro sf' hs
        rcases set_cases hs with ⟨rfl, rfl⟩ | hs
        · rcases StaticFn.checkpoint_target env si k with h1 | h1
          · left; exact h1
          · right; rw [h1]; exact hi
        · right; exact hs
      simp only at h
      split at h
      · exact hset _ h
      · rcases ih _ h with h1 | h1
        · left; exact h1
        · exact hset _ h1

/-- The expectations on a function stay in the sequences `T` if the chains of the `expect` statements for it do. -/
theorem step_target_in {T : Nat → Prop} (env : Env V) (s : Sys V) (hs : s.Sorted env.nightly) (c : Callee) (op : Op V)
    (h : ∀ e ∈ s.target c, e.In T)
    (hb : ∀ g bs, Op.at c g op = some (.expect bs) → (∀ mi, s.infoOf c = some mi → g = mi.generic) → ∀ b ∈ bs, b.In T) :
    ∀ e ∈ (s.step env op).2.target c, e.In T := by
  cases c with
  | inst o m k =>
    -- trace the slot back
    suffices hsl : ∀ obj sl, (s.step env op).2.objs[o]? = some (some obj) → obj[m]? = some sl →
        ∀ e ∈ sl.store.target k, e.In T by
      intro e he
      simp only [Sys.target] at he
      rcases ho : (s.step env op).2.objs[o]? with _ | _ | obj
      · simp [ho] at he
      · simp [ho] at he
      · rw [ho] at he
        simp only at he
        rcases hm : obj[m]? with _ | sl
        · simp [hm] at he
        · rw [hm] at he
          exact hsl obj sl ho hm e he
    have hold : ∀ obj sl, s.objs[o]? = some (some obj) → obj[m]? = some sl → ∀ e ∈ sl.store.target k, e.In T := by
      intro obj sl ho hm e he
      exact h e (by simp only [Sys.target, ho, hm]; exact he)
    cases op with
    | new ms =>
      intro obj sl ho hm
      simp only [Sys.step] at ho
      rw [List.getElem?_append] at ho
      split at ho
      · exact hold obj sl ho hm
      · rw [List.getElem?_singleton] at ho
        split at ho
        · simp at ho
          subst ho
          simp only [Obj.new, List.getElem?_map] at hm
          rcases hms : ms[m]? with _ | mi
          · simp [hms] at hm
          · rw [hms] at hm
            simp at hm
            subst hm
            simp [Store.new_target]
        · simp at ho
    | expect i j k' bs =>
      intro obj sl ho hm
      simp only [Sys.step] at ho
      rcases hi : s.objs[i]? with _ | _ | obj0
      · rw [hi] at ho; exact hold obj sl ho hm
      · rw [hi] at ho; exact hold obj sl ho hm
      · simp only [hi, Obj.expect] at ho
        rcases hj : obj0[j]? with _ | sl0
        · rw [hj] at ho; exact hold obj sl ho hm
        · rw [hj] at ho
          simp only at ho
          rcases set_cases ho with ⟨rfl, hx⟩ | ho
          · simp at hx
            subst hx
            rcases set_cases hm with ⟨rfl, rfl⟩ | hm
            · refine Store.expect_in _ _ ((hs.objs i obj0 hi) j sl0 hj).generic _ _ _ _ (hold obj0 sl0 hi hj) ?_
              intro hk
              exact hb sl0.mi.generic bs (by simp [Op.at, hk]) (by
                intro mi hmi
                simp [Sys.infoOf, hi, hj] at hmi
                rw [hmi])
            · exact hold obj0 sl hi hm
          · exact hold obj sl ho hm
    | call i j k' tid args u =>
      intro obj sl ho hm
      simp only [Sys.step] at ho
      rcases hi : s.objs[i]? with _ | _ | obj0
      · rw [hi] at ho; exact hold obj sl ho hm
      · rw [hi] at ho; exact hold obj sl ho hm
      · simp only [hi, Obj.call] at ho
        rcases hj : obj0[j]? with _ | sl0
        · rw [hj] at ho; exact hold obj sl ho hm
        · rw [hj] at ho
          simp only at ho
          rcases set_cases ho with ⟨rfl, hx⟩ | ho
          · simp at hx
            subst hx
            rcases set_cases hm with ⟨rfl, rfl⟩ | hm
            · exact Store.call_in _ _ ((hs.objs i obj0 hi) j sl0 hj).generic _ _ _ _ (hold obj0 sl0 hi hj)
            · exact hold obj0 sl hi hm
          · exact hold obj sl ho hm
    | checkpoint i =>
      intro obj sl ho hm
      simp only [Sys.step] at ho
      rcases hi : s.objs[i]? with _ | _ | obj0
      · rw [hi] at ho; exact hold obj sl ho hm
      · rw [hi] at ho; exact hold obj sl ho hm
      · rw [hi] at ho
        simp only at ho
        rcases set_cases ho with ⟨rfl, hx⟩ | ho
        · simp at hx
          subst hx
          rcases Obj.checkpoint_slot env obj0 hm k with h1 | h1
          · rw [h1]; simp
          · exact hold obj0 sl hi h1
        · exact hold obj sl ho hm
    | drop i pk =>
      intro obj sl ho hm
      simp only [Sys.step] at ho
      rcases hi : s.objs[i]? with _ | _ | obj0
      · rw [hi] at ho; exact hold obj sl ho hm
      · rw [hi] at ho; exact hold obj sl ho hm
      · rw [hi] at ho
        simp only at ho
        rcases set_cases ho with ⟨_, hx⟩ | ho
        · simp at hx
        · exact hold obj sl ho hm
    | sexpect f k' bs => simp only [Sys.step]; split <;> exact hold
    | scall f k' tid args => simp only [Sys.step]; split <;> exact hold
    | scheckpoint f => simp only [Sys.step]; split <;> exact hold
    | sdrop f pk => simp only [Sys.step]; split <;> exact hold
    | mcheckpoint fs => exact hold
  | stat f k =>
    suffices hsl : ∀ sf, (s.step env op).2.statics[f]? = some sf → ∀ e ∈ sf.store.target k, e.In T by
      intro e he
      simp only [Sys.target] at he
      rcases ho : (s.step env op).2.statics[f]? with _ | sf
      · simp [ho] at he
      · rw [ho] at he
        exact hsl sf ho e he
    have hold : ∀ sf, s.statics[f]? = some sf → ∀ e ∈ sf.store.target k, e.In T := by
      intro sf ho e he
      exact h e (by simp only [Sys.target, ho]; exact he)
    cases op with
    | new ms => exact hold
    | expect i j k' bs =>
      simp only [Sys.step]; repeat' split
      all_goals exact hold
    | call i j k' tid args u =>
      simp only [Sys.step]; repeat' split
      all_goals exact hold
    | checkpoint i =>
      simp only [Sys.step]; repeat' split
      all_goals exact hold
    | drop i pk =>
      simp only [Sys.step]; repeat' split
      all_goals exact hold
    | sexpect i k' bs =>
      intro sf ho
      simp only [Sys.step] at ho
      rcases hi : s.statics[i]? with _ | sf0
      · rw [hi] at ho; exact hold sf ho
      · rw [hi] at ho
        rcases set_cases ho with ⟨rfl, hx⟩ | ho
        · subst hx
          unfold StaticFn.expect
          split
          · exact hold sf0 hi
          · refine Store.expect_in _ _ (hs.statics i sf0 hi).generic _ _ _ _ (hold sf0 hi) ?_
            intro hk
            exact hb sf0.mi.generic bs (by simp [Op.at, hk]) (by
              intro mi hmi
              simp [Sys.infoOf, hi] at hmi
              rw [hmi])
        · exact hold sf ho
    | scall i k' tid args =>
      intro sf ho
      simp only [Sys.step] at ho
      rcases hi : s.statics[i]? with _ | sf0
      · rw [hi] at ho; exact hold sf ho
      · rw [hi] at ho
        rcases set_cases ho with ⟨rfl, hx⟩ | ho
        · subst hx
          unfold StaticFn.call
          split
          · exact hold sf0 hi
          · exact Store.call_in _ _ (hs.statics i sf0 hi).generic _ _ _ _ (hold sf0 hi)
        · exact hold sf ho
    | scheckpoint i =>
      intro sf ho
      simp only [Sys.step] at ho
      rcases hi : s.statics[i]? with _ | sf0
      · rw [hi] at ho; exact hold sf ho
      · rw [hi] at ho
        rcases set_cases ho with ⟨rfl, hx⟩ | ho
        · subst hx
          rcases StaticFn.checkpoint_target env sf0 k with h1 | h1
          · rw [h1]; simp
          · rw [h1]; exact hold sf0 hi
        · exact hold sf ho
    | sdrop i pk =>
      intro sf ho
      simp only [Sys.step] at ho
      rcases hi : s.statics[i]? with _ | sf0
      · rw [hi] at ho; exact hold sf ho
      · rw [hi] at ho
        rcases set_cases ho with ⟨rfl, hx⟩ | ho
        · subst hx
          rcases StaticFn.dropContext_target env pk sf0 k with h1 | h1
          · rw [h1]; simp
          · rw [h1]; exact hold sf0 hi
        · exact hold sf ho
    | mcheckpoint fs =>
      intro sf ho
      simp only [Sys.step] at ho
      rcases checkpointModule_target env fs s.statics ho k with h1 | h1
      · rw [h1]; simp
      · exact hold sf h1

end Mockall
