import Verif.Props.ConcMixed
import Verif.Props.ConcNested

/-! # Sequences that span objects and static methods, under concurrency -/

namespace Mockall

open Spec

variable {V : Type}

/-! ## What a step of an operation on a static method does to expectations in sequences -/

/-- The ghost number, count, window and place in a sequence of each expectation. -/
def Store.marks (st : Store V) (k : Key) : List (Nat × Times × Option SeqHandle) :=
  (st.vec k).map fun e => (e.gid, e.common.times, e.common.seqHandle)

theorem Store.drained_marks (st : Store V) (k : Key) : st.drained.marks k = [] := by
  cases st <;> rfl

open Classical in
theorem Store.setVec_marks {k : Key} {st : Store V} {i : Nat} {e : Expectation V} (h : (st.vec k)[i]? = some e)
    (e' : Expectation V) (k' : Key) :
    (st.setVec k ((st.vec k).set i e')).marks k' =
      if st.alike k k' then (st.marks k).set i (e'.gid, e'.common.times, e'.common.seqHandle) else st.marks k' := by
  unfold Store.marks
  rw [Store.vec_setVec_key h]
  split
  · rw [List.map_set]
  · rfl

theorem Store.setVec_marks_same {k : Key} {st : Store V} {i : Nat} {e e' : Expectation V}
    (h : (st.vec k)[i]? = some e) (hg : e'.gid = e.gid) (ht : e'.common.times = e.common.times)
    (hh : e'.common.seqHandle = e.common.seqHandle) :
    (st.setVec k ((st.vec k).set i e')).marks = st.marks := by
  funext k'
  rw [Store.setVec_marks h]
  split
  · rename_i hs
    have : (st.marks k)[i]? = some (e'.gid, e'.common.times, e'.common.seqHandle) := by
      simp [Store.marks, h, hg, ht, hh]
    rw [show st.marks k' = st.marks k by simp only [Store.marks, Store.alike_vec hs]]
    apply List.ext_getElem?
    intro n
    rw [List.getElem?_set]
    split
    · rename_i e
      subst e
      rw [if_pos (List.getElem?_eq_some_iff.1 this).1, this]
    · rfl
  · rfl

theorem StaticFn.edit_marks (k : Key) (i : Nat) (g : Expectation V → Expectation V) (sf : StaticFn V)
    (hg : ∀ e, (g e).gid = e.gid) (ht : ∀ e, (g e).common.times = e.common.times)
    (hh : ∀ e, (g e).common.seqHandle = e.common.seqHandle) :
    (sf.edit k i g).store.marks = sf.store.marks := by
  unfold StaticFn.edit
  split
  · rename_i e he
    exact Store.setVec_marks_same he (hg e) (ht e) (hh e)
  · rfl

/-- What an operation is doing with an expectation: building it, or calling it: the call has been counted, has passed the
check of the sequence, is the last one needed, or has passed all checks. -/
inductive Phase
  | built
  | counted
  | checked
  | due
  | passed
  deriving DecidableEq

/-- See `Phase`. -/
def SPc.phase : SPc V → Option (Nat × Phase)
  | .build i _ => some (i, .built)
  | .verify i => some (i, .counted)
  | .sat i => some (i, .checked)
  | .satisfy i => some (i, .due)
  | .ret i => some (i, .passed)
  | _ => none

/-- What a step does with expectation number `g`. -/
inductive Trans (g : Nat) (ph ph' : Option Phase) (t t' : Times) (h h' : Option SeqHandle) (q q' : Seqs)
    (log log' : List (Hit V)) : Prop
  | count (hp : ph = none) (hp' : ph' = some .counted) (hc : t'.count = atomicInc t.count) (hr : t'.range = t.range)
      (hh : h' = h) (hq : q' = q) (hle : t.count + 1 < t.range.end_) (hl : log' = log)
  | refuse (hp : ph = none) (hp' : ph' = none) (hr : t'.range = t.range) (hh : h' = h) (hq : q' = q) (x : Hit V)
      (hx : x.gid = g) (hf : x.passed = false) (hl : log' = log ++ [x])
  | fail (hp : ph = some .counted) (hp' : ph' = none) (ht : t' = t) (hh : h' = h) (hq : q' = q) (x : Hit V)
      (hx : x.gid = g) (hf : x.passed = false) (hl : log' = log ++ [x])
  | check (hp : ph = some .counted) (hp' : ph' = some .checked) (ht : t' = t) (hh : h' = h) (hq : q' = q)
      (hl : log' = log) (hv : ∀ d, h = some d → (q d.sid).level = d.seq)
  | due (hp : ph = some .checked) (hp' : ph' = some .due) (ht : t' = t) (hh : h' = h) (hq : q' = q)
      (hl : log' = log) (hc : t.range.start ≤ t.count)
  | early (hp : ph = some .checked) (hp' : ph' = some .passed) (ht : t' = t) (hh : h' = h) (hq : q' = q)
      (hc : t.count < t.range.start) (x : Hit V) (hx : x.gid = g) (hf : x.passed = true) (hl : log' = log ++ [x])
  | free (hp : ph = some .due) (hp' : ph' = some .passed) (ht : t' = t) (hh : h' = h) (hn : h = none) (hq : q' = q)
      (x : Hit V) (hx : x.gid = g) (hf : x.passed = true) (hl : log' = log ++ [x])
  | satisfy (hp : ph = some .due) (hp' : ph' = some .passed) (ht : t' = t) (hh : h' = h) (d : SeqHandle)
      (hd : h = some d) (hlv : (q d.sid).level = d.seq) (hq : q' = q.set d.sid { q d.sid with level := d.seq + 1 })
      (x : Hit V) (hx : x.gid = g) (hf : x.passed = true) (hl : log' = log ++ [x])
  | broken (hp : ph = some .due) (hp' : ph' = none) (ht : t' = t) (hh : h' = h) (d : SeqHandle)
      (hd : h = some d) (hlv : (q d.sid).level ≠ d.seq)
      (hq : q' = q.set d.sid { q d.sid with level := (q d.sid).level + 1 })
      (x : Hit V) (hx : x.gid = g) (hf : x.passed = false) (hl : log' = log ++ [x])
  | build (hp : ph = some .built) (hp' : ph' = none ∨ ph' = some .built) (hl : log' = log)
      (hq : h' = h ∧ q' = q ∨
        ∃ sid, h' = some ⟨sid, (q sid).next⟩ ∧ q' = q.set sid { q sid with next := (q sid).next + 1 })

open Classical in
/-- What a step of an operation at place `pc` with key `k` does. -/
inductive QEff (k : Key) (pc pc' : SPc V) (st st' : Store V) (w w' : World V) : Prop
  | idle (hs : st'.marks = st.marks) (hq : w'.seqs = w.seqs) (hl : w'.log = w.log)
      (hp : pc'.phase = none ∨ pc'.phase = pc.phase)
  | drained (hs : ∀ k', st'.marks k' = []) (hq : w'.seqs = w.seqs) (hl : w'.log = w.log) (hp : pc'.phase = none)
  | added (hs : ∀ k', st'.marks k' = if st.alike k k' then st.marks k ++ [(w.fresh, Times.dflt, none)] else st.marks k')
      (hq : w'.seqs = w.seqs) (hl : w'.log = w.log) (hp : pc.phase = none)
      (hp' : pc'.phase = some ((st.marks k).length, .built))
  | cell (i g : Nat) (t t' : Times) (h h' : Option SeqHandle) (hi : (st.marks k)[i]? = some (g, t, h))
      (hs : ∀ k', st'.marks k' = if st.alike k k' then (st.marks k).set i (g, t', h') else st.marks k')
      (hp : ∀ p, pc.phase = some p → p.1 = i) (hp' : ∀ p, pc'.phase = some p → p.1 = i)
      (ht : Trans g (pc.phase.map (·.2)) (pc'.phase.map (·.2)) t t' h h' w.seqs w'.seqs w.log w'.log)

theorem Expectation.build_mark (b : Build V) (e : Expectation V) (q : Seqs) :
    (e.build b q).2.1.gid = e.gid ∧
    (((e.build b q).2.1.common.seqHandle = e.common.seqHandle ∧ (e.build b q).2.2 = q) ∨
      ∃ sid, (e.build b q).2.1.common.seqHandle = some ⟨sid, (q sid).next⟩ ∧
        (e.build b q).2.2 = q.set sid { q sid with next := (q sid).next + 1 }) := by
  obtain ⟨g, i, c, ⟨m, mp, sh, t⟩, r⟩ := e
  cases b <;>
    simp only [Expectation.build, Expectation.setMatcher, Expectation.setStatic, Times.times,
      Times.never, Common.inSequence, Seqs.nextHandle] <;>
    cases r <;> (repeat' split) <;> simp_all
  all_goals exact .inr ⟨_, ⟨rfl, rfl⟩, rfl⟩

theorem Times.enough {t : Times} : t.isSatisfied ≠ .tooFew ↔ t.range.start ≤ t.count := by
  unfold Times.isSatisfied
  by_cases h : t.range.start ≤ t.count
  · simp only [h]
    split <;> simp
  · simp [h]

theorem SAct.inner_seq (env : Env V) (act : SAct V) (sf : StaticFn V) (w : World V) (h : act.pc.working = true) :
    QEff act.op.key act.pc (act.inner env sf w).1 sf.store (act.inner env sf w).2.1.store w (act.inner env sf w).2.2 := by
  obtain ⟨tid, op, pc⟩ := act
  have hsig : ∀ {i : Nat} {e : Expectation V}, (sf.store.vec op.key)[i]? = some e →
      (sf.store.marks op.key)[i]? = some (e.gid, e.common.times, e.common.seqHandle) := by
    intro i e he
    simp [Store.marks, he]
  have hkeep : ∀ {i : Nat} {e : Expectation V}, (sf.store.vec op.key)[i]? = some e → ∀ k',
      sf.store.marks k' = @ite _ (sf.store.alike op.key k') (Classical.propDecidable _)
        ((sf.store.marks op.key).set i (e.gid, e.common.times, e.common.seqHandle)) (sf.store.marks k') := by
    intro i e he k'
    split
    · rename_i hs
      rw [show sf.store.marks k' = sf.store.marks op.key by simp only [Store.marks, Store.alike_vec hs]]
      have := hsig he
      apply List.ext_getElem?
      intro n
      rw [List.getElem?_set]
      split
      · rename_i e
        subst e
        rw [if_pos (List.getElem?_eq_some_iff.1 this).1, this]
      · rfl
    · rfl
  cases pc with
  | scan i =>
    simp only [SAct.inner]
    split
    · exact .idle rfl rfl rfl (.inl rfl)
    · rename_i e he
      refine .idle (Store.setVec_marks_same he rfl ?_ ?_) rfl rfl ?_
      · simp only [Expectation.matches, Common.matches]
        repeat' split
        all_goals rfl
      · simp only [Expectation.matches, Common.matches]
        repeat' split
        all_goals rfl
      · left
        simp only
        split <;> rfl
  | check i =>
    simp only [SAct.inner]
    repeat' split
    all_goals exact .idle rfl rfl rfl (.inl rfl)
  | inc i =>
    simp only [SAct.inner]
    split
    · exact .idle rfl rfl rfl (.inl rfl)
    · rename_i e he
      split
      · exact .cell i e.gid e.common.times _ e.common.seqHandle _ (hsig he) (fun k' => Store.setVec_marks he _ k')
          (by intro p hp; cases hp) (by intro p hp; cases hp) (.refuse rfl rfl rfl rfl rfl _ rfl rfl rfl)
      · exact .cell i e.gid e.common.times _ e.common.seqHandle _ (hsig he) (fun k' => Store.setVec_marks he _ k')
          (by intro p hp; cases hp) (by intro p hp; cases hp) (.refuse rfl rfl rfl rfl rfl _ rfl rfl rfl)
      · rename_i hok
        exact .cell i e.gid e.common.times _ e.common.seqHandle _ (hsig he) (fun k' => Store.setVec_marks he _ k')
          (by intro p hp; cases hp) (by intro p hp; cases hp; rfl)
          (.count rfl rfl rfl rfl rfl rfl (Times.call_ok hok) rfl)
  | verify i =>
    simp only [SAct.inner]
    split
    · exact .idle rfl rfl rfl (.inl rfl)
    · rename_i e he
      split
      · exact .cell i e.gid e.common.times _ e.common.seqHandle _ (hsig he) (hkeep he)
          (by intro p hp; cases hp; rfl) (by intro p hp; cases hp) (.fail rfl rfl rfl rfl rfl _ rfl rfl rfl)
      · rename_i hv
        refine .cell i e.gid e.common.times _ e.common.seqHandle _ (hsig he) (hkeep he)
          (by intro p hp; cases hp; rfl) (by intro p hp; cases hp; rfl) (.check rfl rfl rfl rfl rfl rfl ?_)
        intro d hd
        simp only [Common.verifySequence, hd, Seqs.verify] at hv
        split at hv
        · rename_i e; exact e.symm
        · cases hv
  | sat i =>
    simp only [SAct.inner]
    split
    · exact .idle rfl rfl rfl (.inl rfl)
    · rename_i e he
      split
      · rename_i hc
        exact .cell i e.gid e.common.times _ e.common.seqHandle _ (hsig he) (hkeep he)
          (by intro p hp; cases hp; rfl) (by intro p hp; cases hp; rfl)
          (.due rfl rfl rfl rfl rfl rfl (Times.enough.1 hc))
      · rename_i hc
        rw [Times.enough] at hc
        exact .cell i e.gid e.common.times _ e.common.seqHandle _ (hsig he) (hkeep he)
          (by intro p hp; cases hp; rfl) (by intro p hp; cases hp; rfl)
          (.early rfl rfl rfl rfl rfl (by omega) _ rfl rfl rfl)
  | satisfy i =>
    simp only [SAct.inner]
    split
    · exact .idle rfl rfl rfl (.inl rfl)
    · rename_i e he
      cases hd : e.common.seqHandle with
      | none =>
        simp only [Common.satisfySequence, hd]
        refine .cell i e.gid e.common.times _ e.common.seqHandle _ (hsig he) (hkeep he)
          (by intro p hp; cases hp; rfl) (by intro p hp; cases hp; rfl)
          (.free rfl rfl rfl rfl hd rfl _ rfl rfl rfl)
      | some d =>
        simp only [Common.satisfySequence, hd, Seqs.satisfy]
        by_cases hlv : (w.seqs d.sid).level = d.seq
        · simp only [hlv, if_true]
          refine .cell i e.gid e.common.times _ e.common.seqHandle _ (hsig he) (hkeep he)
            (by intro p hp; cases hp; rfl) (by intro p hp; cases hp; rfl)
            (.satisfy rfl rfl rfl rfl d hd hlv rfl _ rfl rfl rfl)
        · simp only [hlv, if_false]
          refine .cell i e.gid e.common.times _ e.common.seqHandle _ (hsig he) (hkeep he)
            (by intro p hp; cases hp; rfl) (by intro p hp; cases hp)
            (.broken rfl rfl rfl rfl d hd hlv rfl _ rfl rfl rfl)
  | ret i =>
    simp only [SAct.inner]
    split
    · exact .idle rfl rfl rfl (.inl rfl)
    · rename_i e he
      obtain ⟨h1, h2⟩ := Expectation.ret_call_frame (env.cx tid) (sf.mi.fn op.key) op.args e w
      refine .idle (Store.setVec_marks_same he ?_ ?_ ?_) ?_ ?_ (.inl rfl)
      · rw [h1]
      · rw [h1]
      · rw [h1]
      · rw [h2]
      · rw [h2]
  | push =>
    simp only [SAct.inner]
    refine .added ?_ rfl rfl rfl ?_
    · intro k'
      simp only [Store.marks, Store.vec_push_key]
      split
      · simp only [List.map_append, List.map_cons, List.map_nil]
        rfl
      · rfl
    · simp [SPc.phase, Store.marks]
  | build i bs =>
    simp only [SAct.inner]
    split
    · exact .idle rfl rfl rfl (.inl rfl)
    · exact .idle rfl rfl rfl (.inl rfl)
    · rename_i e b bs' he
      obtain ⟨h1, h2⟩ := Expectation.build_mark b e w.seqs
      split
      · refine .cell i e.gid e.common.times (e.build b w.seqs).2.1.common.times e.common.seqHandle
          (e.build b w.seqs).2.1.common.seqHandle (hsig he) ?_
          (by intro p hp; cases hp; rfl) (by intro p hp; cases hp) (.build rfl (.inl rfl) rfl h2)
        intro k'
        rw [Store.setVec_marks he, h1]
      · refine .cell i e.gid e.common.times (e.build b w.seqs).2.1.common.times e.common.seqHandle
          (e.build b w.seqs).2.1.common.seqHandle (hsig he) ?_
          (by intro p hp; cases hp; rfl) (by intro p hp; cases hp; rfl) (.build rfl (.inr rfl) rfl h2)
        intro k'
        rw [Store.setVec_marks he]
        simp only [h1]
  | drain =>
    simp only [SAct.inner]
    exact .drained (Store.drained_marks _) rfl rfl rfl
  | _ => simp [SPc.working] at h

theorem SAct.step_seq {env : Env V} {id : Nat} {act : SAct V} {t t' : SState V} (h : act.step env id t = some t') :
    ∃ pc, t'.acts = t.acts.set id { act with pc := pc } ∧
      QEff act.op.key act.pc pc t.sf.store t'.sf.store t.world t'.world ∧
      (act.pc.inside = false → pc.phase = none) := by
  obtain ⟨tid, op, pc⟩ := act
  have hwork : ∀ (hw : pc.working = true), SAct.step env id ⟨tid, op, pc⟩ t =
      some { t with sf := (SAct.inner env ⟨tid, op, pc⟩ t.sf t.world).2.1
                    world := (SAct.inner env ⟨tid, op, pc⟩ t.sf t.world).2.2
                    acts := t.acts.set id ⟨tid, op, (SAct.inner env ⟨tid, op, pc⟩ t.sf t.world).1⟩ } := by
    intro hw
    cases pc <;> simp only [SPc.working, Bool.false_eq_true] at hw <;> rfl
  by_cases hw : pc.working = true
  · rw [hwork hw] at h
    cases h
    refine ⟨_, rfl, SAct.inner_seq env ⟨tid, op, pc⟩ t.sf t.world hw, ?_⟩
    intro hc
    cases pc <;> simp_all [SPc.working, SPc.inside]
  · cases pc with
    | clear => cases h; exact ⟨.tryWait, rfl, .idle rfl rfl rfl (.inl rfl), fun _ => rfl⟩
    | tryWait =>
      simp only [SAct.step] at h
      split at h
      · cases h
      · split at h <;> cases h <;> exact ⟨_, rfl, .idle rfl rfl rfl (.inl rfl), fun _ => rfl⟩
    | wait =>
      simp only [SAct.step] at h
      split at h
      · cases h
      · split at h <;> cases h
        · exact ⟨_, rfl, .idle rfl rfl rfl (.inl rfl), fun _ => rfl⟩
        · have : op.first.phase = none := by cases op <;> rfl
          exact ⟨_, rfl, .idle rfl rfl rfl (.inl this), fun _ => this⟩
    | leave r => cases h; exact ⟨_, rfl, .idle rfl rfl rfl (.inl rfl), by simp [SPc.inside]⟩
    | answer r => cases h; exact ⟨_, rfl, .idle rfl rfl rfl (.inl rfl), fun _ => rfl⟩
    | leaveExpect i r => cases h; exact ⟨_, rfl, .idle rfl rfl rfl (.inl rfl), by simp [SPc.inside]⟩
    | leaveDrain es => cases h; exact ⟨_, rfl, .idle rfl rfl rfl (.inl rfl), by simp [SPc.inside]⟩
    | dropping p es =>
      cases es with
      | nil => cases h; exact ⟨_, rfl, .idle rfl rfl rfl (.inl rfl), fun _ => rfl⟩
      | cons e es =>
        simp only [SAct.step] at h
        repeat' split at h
        all_goals
          cases h
          exact ⟨_, rfl, .idle rfl rfl rfl (.inl rfl), fun _ => rfl⟩
    | done o => cases h
    | _ => simp [SPc.working] at hw

theorem QEff.congr {k : Key} {pc pc' : SPc V} {st st' st0 st0' : Store V} {w w' : World V}
    (h : QEff k pc pc' st st' w w') (hs : st0.marks = st.marks) (hs' : st0'.marks = st'.marks)
    (hk : ∀ a b, st0.alike a b ↔ st.alike a b) : QEff k pc pc' st0 st0' w w' := by
  have hk' : ∀ (b : Key) (p q : List (Nat × Times × Option SeqHandle)),
      @ite _ (st.alike k b) (Classical.propDecidable _) p q = @ite _ (st0.alike k b) (Classical.propDecidable _) p q := by
    intro b p q
    by_cases hc : st.alike k b
    · rw [if_pos hc, if_pos ((hk k b).2 hc)]
    · rw [if_neg hc, if_neg fun h => hc ((hk k b).1 h)]
  cases h with
  | idle h1 h2 h3 h4 => exact .idle (by rw [hs, hs', h1]) h2 h3 h4
  | drained h1 h2 h3 h4 => exact .drained (fun k' => by rw [hs', h1]) h2 h3 h4
  | added h1 h2 h3 h4 h5 => exact .added (fun k' => by rw [hs', hs, h1 k', hk']) h2 h3 h4 (by rw [hs]; exact h5)
  | cell i g t t' h h' hi h1 hp hp' ht =>
    exact .cell i g t t' h h' (by rw [hs]; exact hi) (fun k' => by rw [hs', hs, h1 k', hk']) hp hp' ht

theorem TState.stepAct_seq {env : Env V} {s s' : TState V} {id : Nat} {x : TAct V} {ans : Answer V}
    (hx : s.acts[id]? = some x) (h : s.stepAct env id x ans = some s') :
    ∃ pc, s'.acts = s.acts.set id { x with act := { x.act with pc := pc } } ∧
      (∀ g, g ≠ x.fn → s'.fns g = s.fns g) ∧
      QEff x.act.op.key x.act.pc pc (s.fns x.fn).store (s'.fns x.fn).store s.world s'.world ∧
      (x.act.pc.inside = false → pc.phase = none) := by
  obtain ⟨-, -, hother, -⟩ := TState.stepAct_shape hx h
  unfold TState.stepAct at h
  simp only at h
  split at h
  · cases h
  · rename_i t ht
    obtain ⟨pc, h1, h2, h3⟩ := SAct.step_seq ht
    have hlen := (List.getElem?_eq_some_iff.1 hx).1
    refine ⟨pc, ?_, fun g hg => (hother g hg).1, ?_, h3⟩
    · cases h
      simp only [h1]
      congr 2
      rw [List.getElem?_set_self (by simpa using hlen)]
      rfl
    · cases h
      simp only [if_true]
      cases hp : x.act.pc.place with
      | none => simpa only [hp] using h2
      | some i =>
        simp only [hp] at h2 ⊢
        have e1 := StaticFn.edit_marks x.act.op.key i (Expectation.scripted ans) (s.fns x.fn)
          (fun _ => rfl) (fun _ => rfl) (fun _ => rfl)
        have e2 := (StaticFn.edit_sigs x.act.op.key i (Expectation.scripted ans) (s.fns x.fn)
          (fun _ => rfl) (fun _ => rfl)).2
        refine h2.congr e1.symm ?_ fun a b => (e2 a b).symm
        split
        · rename_i e _
          exact StaticFn.edit_marks x.act.op.key i (Expectation.restored e) t.sf (fun _ => rfl) (fun _ => rfl)
            (fun _ => rfl)
        · rfl

/-! ## The books of a sequence -/

/-- What holds for sequence `sid` between levels and the record of calls: `O n` says that an expectation of an object has
place `n`, `R g t h` that expectation number `g` of a static method has window and count `t` and place `h`, `P g ph` that
some operation is in phase `ph` with it.  `L` is the level of the sequence, `N` its next free place. -/
structure SeqBook (sid : Nat) (O : Nat → Prop) (R : Nat → Times → Option SeqHandle → Prop) (P : Nat → Phase → Prop)
    (log : List (Hit V)) (L N : Nat) : Prop where
  lt : ∀ (g : Nat) (t : Times) (n : Nat), R g t (some ⟨sid, n⟩) → n < N
  obj : ∀ n, O n → n < N
  uniq : ∀ (g g' : Nat) (t t' : Times) (n : Nat), R g t (some ⟨sid, n⟩) → R g' t' (some ⟨sid, n⟩) → g = g'
  apart : ∀ (g : Nat) (t : Times) (n : Nat), R g t (some ⟨sid, n⟩) → ¬ O n
  level : L ≤ N
  checked : ∀ (g : Nat) (ph : Phase) (t : Times) (n : Nat), P g ph → ph = .checked ∨ ph = .due →
    R g t (some ⟨sid, n⟩) → L = n
  due : ∀ (g : Nat) (t : Times) (h : Option SeqHandle), P g .due → R g t h → t.range.start ≤ t.count
  built : ∀ (g : Nat) (t : Times) (n : Nat), P g .built → R g t (some ⟨sid, n⟩) → L ≤ n
  began : ∀ (x : Hit V) (t : Times) (n : Nat), x ∈ log → x.passed = true → R x.gid t (some ⟨sid, n⟩) → n ≤ L
  done : ∀ (g : Nat) (t : Times) (n : Nat), R g t (some ⟨sid, n⟩) → n < L → t.range.start ≤ hits g log
  order : ∀ (p : Nat) (x : Hit V) (g : Nat) (t t' : Times) (n m : Nat), log[p]? = some x → x.passed = true →
    R x.gid t (some ⟨sid, n⟩) → R g t' (some ⟨sid, m⟩) → m < n → t'.range.start ≤ hits g (log.take p)
  sorted : ∀ (p q : Nat) (x y : Hit V) (t t' : Times) (n m : Nat), log[p]? = some x → log[q]? = some y →
    x.passed = true → y.passed = true → R x.gid t (some ⟨sid, n⟩) → R y.gid t' (some ⟨sid, m⟩) → p < q → n ≤ m
  ret : ∀ g, P g .passed → ∃ x ∈ log, x.gid = g ∧ x.passed = true
  ceil : log.length < usizeMax → ∀ (g : Nat) (ph : Phase) (t : Times) (h : Option SeqHandle), P g ph →
    ph = .counted ∨ ph = .checked ∨ ph = .due → R g t h → hits g log + 1 < t.range.end_
  reach : log.length < usizeMax → ∀ (g : Nat) (t : Times) (n : Nat), R g t (some ⟨sid, n⟩) → 0 < t.range.start →
    t.range.start ≤ passes g log → n < L

variable {sid : Nat} {O : Nat → Prop} {R R' : Nat → Times → Option SeqHandle → Prop} {P P' : Nat → Phase → Prop}
  {log log' : List (Hit V)} {L N : Nat}

/-- Things may go away. -/
theorem SeqBook.fewer (b : SeqBook sid O R P log L N) (hR : ∀ g t h, R' g t h → R g t h) (hP : ∀ g ph, P' g ph → P g ph) :
    SeqBook sid O R' P' log L N where
  lt g t n h := b.lt g t n (hR _ _ _ h)
  obj := b.obj
  uniq g g' t t' n h h' := b.uniq g g' t t' n (hR _ _ _ h) (hR _ _ _ h')
  apart g t n h := b.apart g t n (hR _ _ _ h)
  level := b.level
  checked g ph t n hp e h := b.checked g ph t n (hP _ _ hp) e (hR _ _ _ h)
  due g t h hp hr := b.due g t h (hP _ _ hp) (hR _ _ _ hr)
  built g t n hp h := b.built g t n (hP _ _ hp) (hR _ _ _ h)
  began x t n hx hp h := b.began x t n hx hp (hR _ _ _ h)
  done g t n h := b.done g t n (hR _ _ _ h)
  order p x g t t' n m hx hp h h' := b.order p x g t t' n m hx hp (hR _ _ _ h) (hR _ _ _ h')
  sorted p q x y t t' n m hx hy hp hp' h h' := b.sorted p q x y t t' n m hx hy hp hp' (hR _ _ _ h) (hR _ _ _ h')
  ret g hp := b.ret g (hP _ _ hp)
  ceil hl g ph t h hp e hr := b.ceil hl g ph t h (hP _ _ hp) e (hR _ _ _ hr)
  reach hl g t n h := b.reach hl g t n (hR _ _ _ h)

/-- An expectation of an object lets the next one have its turn. -/
theorem SeqBook.advance (b : SeqBook sid O R P log L N) (h : O L) : SeqBook sid O R P log (L + 1) N where
  lt := b.lt
  obj := b.obj
  uniq := b.uniq
  apart := b.apart
  level := b.obj L h
  checked g ph t n hp e hr := absurd (b.checked g ph t n hp e hr ▸ h) (b.apart g t n hr)
  due := b.due
  built g t n hp hr := by
    have := b.built g t n hp hr
    have : L ≠ n := fun e => b.apart g t n hr (e ▸ h)
    omega
  began x t n hx hp hr := Nat.le_succ_of_le (b.began x t n hx hp hr)
  done g t n hr hlt := by
    have : L ≠ n := fun e => b.apart g t n hr (e ▸ h)
    exact b.done g t n hr (by omega)
  order := b.order
  sorted := b.sorted
  ret := b.ret
  ceil := b.ceil
  reach hl g t n hr h1 h2 := Nat.lt_succ_of_lt (b.reach hl g t n hr h1 h2)

/-- A new expectation. -/
theorem SeqBook.added (b : SeqBook sid O R P log L N) {g0 : Nat}
    (hR : ∀ g t h, R' g t h → (g = g0 ∧ h = none) ∨ (g ≠ g0 ∧ R g t h))
    (hP : ∀ g ph, P' g ph → (g = g0 ∧ ph = .built) ∨ (g ≠ g0 ∧ P g ph)) :
    SeqBook sid O R' P' log L N := by
  have hR1 : ∀ {g t n}, R' g t (some ⟨sid, n⟩) → g ≠ g0 ∧ R g t (some ⟨sid, n⟩) := by
    intro g t n h
    rcases hR _ _ _ h with ⟨-, h⟩ | h
    · cases h
    · exact h
  have hP1 : ∀ {g ph}, P' g ph → g ≠ g0 → P g ph := by
    intro g ph h hg
    rcases hP _ _ h with ⟨e, -⟩ | h
    · exact absurd e hg
    · exact h.2
  have hR2 : ∀ {g t h}, R' g t h → g ≠ g0 → R g t h := by
    intro g t h h' hg
    rcases hR _ _ _ h' with ⟨e, -⟩ | h
    · exact absurd e hg
    · exact h.2
  have hP2 : ∀ {g ph}, P' g ph → ph ≠ .built → g ≠ g0 := by
    intro g ph h hg
    rcases hP _ _ h with ⟨-, e⟩ | h
    · exact absurd e hg
    · exact h.1
  exact {
    lt := fun g t n h => b.lt g t n (hR1 h).2
    obj := b.obj
    uniq := fun g g' t t' n h h' => b.uniq g g' t t' n (hR1 h).2 (hR1 h').2
    apart := fun g t n h => b.apart g t n (hR1 h).2
    level := b.level
    checked := fun g ph t n hp e h => b.checked g ph t n (hP1 hp (hR1 h).1) e (hR1 h).2
    due := fun g t h hp hr => by
      have := hP2 hp (by simp)
      exact b.due g t h (hP1 hp this) (hR2 hr this)
    built := fun g t n hp h => b.built g t n (hP1 hp (hR1 h).1) (hR1 h).2
    began := fun x t n hx hp h => b.began x t n hx hp (hR1 h).2
    done := fun g t n h => b.done g t n (hR1 h).2
    order := fun p x g t t' n m hx hp h h' => b.order p x g t t' n m hx hp (hR1 h).2 (hR1 h').2
    sorted := fun p q x y t t' n m hx hy hp hp' h h' => b.sorted p q x y t t' n m hx hy hp hp' (hR1 h).2 (hR1 h').2
    ret := fun g hp => b.ret g (hP1 hp (hP2 hp (by simp)))
    ceil := fun hl g ph t h hp e hr => by
      have := hP2 hp (by rcases e with rfl | rfl | rfl <;> simp)
      exact b.ceil hl g ph t h (hP1 hp this) e (hR2 hr this)
    reach := fun hl g t n h => b.reach hl g t n (hR1 h).2 }

theorem hits_snoc (g : Nat) (log : List (Hit V)) (x : Hit V) :
    hits g (log ++ [x]) = hits g log + (if x.gid = g then 1 else 0) := by
  simp only [hits, List.countP_append, List.countP_cons, List.countP_nil]
  by_cases e : x.gid = g <;> simp [e]

theorem passes_snoc (g : Nat) (log : List (Hit V)) (x : Hit V) :
    passes g (log ++ [x]) = passes g log + (if x.gid = g ∧ x.passed = true then 1 else 0) := by
  simp only [passes, List.countP_append, List.countP_cons, List.countP_nil]
  by_cases e : x.gid = g <;> cases hp : x.passed <;> simp [e]

theorem log_snoc {log : List (Hit V)} {x y : Hit V} {p : Nat} (h : (log ++ [x])[p]? = some y) :
    log[p]? = some y ∨ (p = log.length ∧ y = x) := by
  rw [List.getElem?_append] at h
  split at h
  · exact .inl h
  · rename_i hp
    rw [List.getElem?_singleton] at h
    split at h
    · exact .inr ⟨by omega, (Option.some.inj h).symm⟩
    · cases h

/-- A change of one expectation that records nothing and does not move the sequence. -/
theorem SeqBook.quiet (b : SeqBook sid O R P log L N) {g0 : Nat} {t0 t1 : Times} {h0 : Option SeqHandle}
    {ph1 : Option Phase} (h0R : R g0 t0 h0) (hrange : t1.range = t0.range)
    (hR : ∀ g t h, R' g t h → (g = g0 ∧ t = t1 ∧ h = h0) ∨ (g ≠ g0 ∧ R g t h))
    (hP : ∀ g ph, P' g ph → (g = g0 ∧ ph1 = some ph) ∨ (g ≠ g0 ∧ P g ph))
    (hchecked : ph1 = some .checked ∨ ph1 = some .due → ∀ n, h0 = some ⟨sid, n⟩ → L = n)
    (hdue : ph1 = some .due → t1.range.start ≤ t1.count)
    (hceil : log.length < usizeMax → ph1 = some .counted ∨ ph1 = some .checked ∨ ph1 = some .due →
      hits g0 log + 1 < t1.range.end_)
    (hno : ph1 ≠ some .built ∧ ph1 ≠ some .passed) :
    SeqBook sid O R' P' log L N := by
  have hR1 : ∀ {g t h}, R' g t h → ∃ t', R g t' h ∧ t'.range = t.range := by
    intro g t h hr
    rcases hR _ _ _ hr with ⟨rfl, rfl, rfl⟩ | ⟨-, hr⟩
    · exact ⟨t0, h0R, hrange.symm⟩
    · exact ⟨t, hr, rfl⟩
  refine ⟨?_, b.obj, ?_, ?_, b.level, ?_, ?_, ?_, ?_, ?_, ?_, ?_, ?_, ?_, ?_⟩
  · intro g t n h
    obtain ⟨t', h, -⟩ := hR1 h
    exact b.lt g t' n h
  · intro g g' t t' n h h'
    obtain ⟨u, h, -⟩ := hR1 h
    obtain ⟨u', h', -⟩ := hR1 h'
    exact b.uniq g g' u u' n h h'
  · intro g t n h
    obtain ⟨t', h, -⟩ := hR1 h
    exact b.apart g t' n h
  · intro g ph t n hp e h
    rcases hR _ _ _ h with ⟨rfl, rfl, rfl⟩ | ⟨hg, h⟩
    · rcases hP _ _ hp with ⟨-, hp⟩ | ⟨hg, -⟩
      · exact hchecked (by rcases e with rfl | rfl <;> simp [hp]) n rfl
      · exact absurd rfl hg
    · rcases hP _ _ hp with ⟨e, -⟩ | ⟨-, hp⟩
      · exact absurd e hg
      · exact b.checked g ph t n hp e h
  · intro g t h hp hr
    rcases hR _ _ _ hr with ⟨rfl, rfl, rfl⟩ | ⟨hg, h⟩
    · rcases hP _ _ hp with ⟨-, hp⟩ | ⟨hg, -⟩
      · exact hdue hp
      · exact absurd rfl hg
    · rcases hP _ _ hp with ⟨e, -⟩ | ⟨-, hp⟩
      · exact absurd e hg
      · exact b.due g t _ hp h
  · intro g t n hp h
    rcases hP _ _ hp with ⟨-, hp⟩ | ⟨hg, hp⟩
    · exact absurd hp hno.1
    · obtain ⟨t', h, -⟩ := hR1 h
      exact b.built g t' n hp h
  · intro x t n hx hp h
    obtain ⟨t', h, -⟩ := hR1 h
    exact b.began x t' n hx hp h
  · intro g t n h hlt
    obtain ⟨t', h, e⟩ := hR1 h
    exact e ▸ b.done g t' n h hlt
  · intro p x g t t' n m hx hp h h' hlt
    obtain ⟨u, h, -⟩ := hR1 h
    obtain ⟨u', h', e⟩ := hR1 h'
    exact e ▸ b.order p x g u u' n m hx hp h h' hlt
  · intro p q x y t t' n m hx hy hp hp' h h' hlt
    obtain ⟨u, h, -⟩ := hR1 h
    obtain ⟨u', h', -⟩ := hR1 h'
    exact b.sorted p q x y u u' n m hx hy hp hp' h h' hlt
  · intro g hp
    rcases hP _ _ hp with ⟨-, hp⟩ | ⟨-, hp⟩
    · exact absurd hp hno.2
    · exact b.ret g hp
  · intro hl g ph t h hp e hr
    rcases hR _ _ _ hr with ⟨rfl, rfl, rfl⟩ | ⟨hg, h⟩
    · rcases hP _ _ hp with ⟨-, hp⟩ | ⟨hg, -⟩
      · exact hceil hl (by rcases e with rfl | rfl | rfl <;> simp [hp])
      · exact absurd rfl hg
    · rcases hP _ _ hp with ⟨e, -⟩ | ⟨-, hp⟩
      · exact absurd e hg
      · exact b.ceil hl g ph t _ hp e h
  · intro hl g t n h h1 h2
    obtain ⟨t', h, e⟩ := hR1 h
    exact b.reach hl g t' n h (e ▸ h1) (e ▸ h2)

/-- A call is recorded, and the level moves to `L'`. -/
theorem SeqBook.logged (b : SeqBook sid O R P log L N) {g0 : Nat} {t0 t1 : Times} {h0 : Option SeqHandle} {L' : Nat}
    {ph1 : Option Phase} (h0R : R g0 t0 h0) (hrange : t1.range = t0.range)
    (hR : ∀ g t h, R' g t h → (g = g0 ∧ t = t1 ∧ h = h0) ∨ (g ≠ g0 ∧ R g t h))
    (hP : ∀ g ph, P' g ph → (g = g0 ∧ ph1 = some ph) ∨ (g ≠ g0 ∧ P g ph)) (x : Hit V) (hx : x.gid = g0)
    (hph : ph1 = none ∨ ph1 = some .passed ∧ x.passed = true)
    (hbegan : x.passed = true → ∀ n, h0 = some ⟨sid, n⟩ → n = L)
    (hL : L' = L ∨ L' = L + 1 ∧ h0 = some ⟨sid, L⟩ ∧ t0.range.start ≤ hits g0 log + 1)
    (hreach : log.length + 1 < usizeMax → x.passed = true → ∀ n, h0 = some ⟨sid, n⟩ → 0 < t0.range.start →
      t0.range.start ≤ passes g0 log + 1 → n < L') :
    SeqBook sid O R' P' (log ++ [x]) L' N := by
  have hR1 : ∀ {g t h}, R' g t h → ∃ t', R g t' h ∧ t'.range = t.range := by
    intro g t h hr
    rcases hR _ _ _ hr with ⟨rfl, rfl, rfl⟩ | ⟨-, hr⟩
    · exact ⟨t0, h0R, hrange.symm⟩
    · exact ⟨t, hr, rfl⟩
  have hR0 : ∀ {t h}, R' g0 t h → h = h0 := by
    intro t h hr
    rcases hR _ _ _ hr with ⟨-, -, h⟩ | ⟨hn, -⟩
    · exact h
    · exact absurd rfl hn
  have hP1 : ∀ {g ph}, P' g ph → ph ≠ .passed → g ≠ g0 ∧ P g ph := by
    intro g ph hp hn
    rcases hP _ _ hp with ⟨-, h⟩ | h
    · rcases hph with e | ⟨e, -⟩ <;> rw [e] at h <;> cases h
      exact absurd rfl hn
    · exact h
  have hR2 : ∀ {g t h}, R' g t h → g ≠ g0 → R g t h := by
    intro g t h hr hn
    rcases hR _ _ _ hr with ⟨e, -⟩ | h
    · exact absurd e hn
    · exact h.2
  have hmono : L ≤ L' := by omega
  have hhits : ∀ g, hits g log ≤ hits g (log ++ [x]) := by
    intro g
    rw [hits_snoc]
    omega
  -- no other expectation has the place that has just been dealt with
  have hother : ∀ {g t n}, g ≠ g0 → R g t (some ⟨sid, n⟩) → L' = L + 1 → n ≠ L := by
    rintro g t n hg hr e rfl
    rcases hL with h | ⟨-, h, -⟩
    · omega
    · exact hg (b.uniq g g0 t t0 n hr (h ▸ h0R))
  refine ⟨?_, b.obj, ?_, ?_, ?_, ?_, ?_, ?_, ?_, ?_, ?_, ?_, ?_, ?_, ?_⟩
  · intro g t n h
    obtain ⟨t', h, -⟩ := hR1 h
    exact b.lt g t' n h
  · intro g g' t t' n h h'
    obtain ⟨u, h, -⟩ := hR1 h
    obtain ⟨u', h', -⟩ := hR1 h'
    exact b.uniq g g' u u' n h h'
  · intro g t n h
    obtain ⟨t', h, -⟩ := hR1 h
    exact b.apart g t' n h
  · rcases hL with rfl | ⟨rfl, h, -⟩
    · exact b.level
    · exact b.lt g0 t0 L (h ▸ h0R)
  · intro g ph t n hp e h
    obtain ⟨hg, hp⟩ := hP1 hp (by rcases e with rfl | rfl <;> simp)
    have hr := hR2 h hg
    have := b.checked g ph t n hp e hr
    rcases hL with h | ⟨h, -, -⟩
    · omega
    · exact absurd this.symm (hother hg hr h)
  · intro g t h hp hr
    obtain ⟨hg, hp⟩ := hP1 hp (by simp)
    exact b.due g t h hp (hR2 hr hg)
  · intro g t n hp h
    obtain ⟨hg, hp⟩ := hP1 hp (by simp)
    have hr := hR2 h hg
    have := b.built g t n hp hr
    rcases hL with h | ⟨h, -, -⟩
    · omega
    · have := hother hg hr h
      omega
  · intro y t n hy hp h
    rcases List.mem_append.1 hy with hy | hy
    · obtain ⟨t', h, -⟩ := hR1 h
      exact Nat.le_trans (b.began y t' n hy hp h) hmono
    · rw [List.mem_singleton] at hy
      subst hy
      rw [hx] at h
      have := hbegan hp n (hR0 h).symm
      omega
  · intro g t n h hlt
    obtain ⟨t', h', e⟩ := hR1 h
    rw [← e]
    by_cases hn : n < L
    · exact Nat.le_trans (b.done g t' n h' hn) (hhits g)
    · rcases hL with hc | ⟨hc, hc', hc2⟩
      · omega
      · have hnL : n = L := by omega
        subst hnL
        have hg : g = g0 := b.uniq g g0 t' t0 n h' (hc' ▸ h0R)
        subst hg
        rw [hits_snoc, if_pos hx, e]
        rcases hR _ _ _ h with ⟨-, rfl, -⟩ | ⟨hn, -⟩
        · rw [hrange]; exact hc2
        · exact absurd rfl hn
  · intro p y g t t' n m hy hp h h' hlt
    obtain ⟨u, h1, -⟩ := hR1 h
    obtain ⟨u', h1', e⟩ := hR1 h'
    rw [← e]
    rcases log_snoc hy with hy | ⟨rfl, rfl⟩
    · rw [List.take_append_of_le_length (Nat.le_of_lt (get_lt hy))]
      exact b.order p y g u u' n m hy hp h1 h1' hlt
    · rw [List.take_left']
      · have := hbegan hp n ?_
        · exact b.done g u' m h1' (by omega)
        · rw [hx] at h
          exact (hR0 h).symm
      · rfl
  · intro p q y z t t' n m hy hz hp hp' h h' hlt
    obtain ⟨u, h1, -⟩ := hR1 h
    obtain ⟨u', h1', -⟩ := hR1 h'
    rcases log_snoc hz with hz' | ⟨rfl, rfl⟩
    · rcases log_snoc hy with hy' | ⟨rfl, rfl⟩
      · exact b.sorted p q y z u u' n m hy' hz' hp hp' h1 h1' hlt
      · have := get_lt hz'
        omega
    · rcases log_snoc hy with hy | ⟨rfl, rfl⟩
      · have := b.began y u n (List.mem_of_getElem? hy) hp h1
        have := hbegan hp' m (by rw [hx] at h'; exact (hR0 h').symm)
        omega
      · omega
  · intro g hp
    rcases hP _ _ hp with ⟨rfl, hp⟩ | ⟨-, hp⟩
    · rcases hph with e | ⟨-, e⟩
      · rw [e] at hp; cases hp
      · exact ⟨x, by simp, hx, e⟩
    · obtain ⟨y, hy, h⟩ := b.ret g hp
      exact ⟨y, List.mem_append_left _ hy, h⟩
  · intro hl g ph t h hp e hr
    rw [List.length_append, List.length_singleton] at hl
    obtain ⟨hg, hp⟩ := hP1 hp (by rcases e with rfl | rfl | rfl <;> simp)
    rw [hits_snoc, if_neg (fun e => hg (e.symm.trans hx))]
    exact b.ceil (by omega) g ph t h hp e (hR2 hr hg)
  · intro hl g t n h h1 h2
    rw [List.length_append, List.length_singleton] at hl
    obtain ⟨t', h', e⟩ := hR1 h
    rw [passes_snoc] at h2
    by_cases hg : g = g0
    · subst hg
      cases hp : x.passed with
      | false =>
        simp only [hp, Bool.false_eq_true, and_false, if_false] at h2
        exact Nat.lt_of_lt_of_le (b.reach (by omega) g t' n h' (e ▸ h1) (e ▸ h2)) hmono
      | true =>
        rw [if_pos ⟨hx, hp⟩] at h2
        rcases hR _ _ _ h with ⟨-, rfl, rfl⟩ | ⟨hn, -⟩
        · exact hreach hl hp n rfl (hrange ▸ h1) (hrange ▸ h2)
        · exact absurd rfl hn
    · rw [if_neg (fun c => hg (c.1.symm.trans hx))] at h2
      exact Nat.lt_of_lt_of_le (b.reach (by omega) g t' n h' (e ▸ h1) (e ▸ h2)) hmono

/-- A builder call. -/
theorem SeqBook.builds (b : SeqBook sid O R P log L N) {g0 : Nat} {t0 t1 : Times} {h0 h1 : Option SeqHandle} {N' : Nat}
    {ph1 : Option Phase} (h0R : R g0 t0 h0) (h0P : P g0 .built) (hlog : hits g0 log = 0)
    (hR : ∀ g t h, R' g t h → (g = g0 ∧ t = t1 ∧ h = h1) ∨ (g ≠ g0 ∧ R g t h))
    (hP : ∀ g ph, P' g ph → (g = g0 ∧ ph1 = some ph) ∨ (g ≠ g0 ∧ P g ph))
    (hph : ph1 = none ∨ ph1 = some .built)
    (hN : N' = N ∧ (h1 = h0 ∨ ∀ n, h1 ≠ some ⟨sid, n⟩) ∨ N' = N + 1 ∧ h1 = some ⟨sid, N⟩) :
    SeqBook sid O R' P' log L N' := by
  have hmono : N ≤ N' := by omega
  -- where a member was, or it is the new one
  have hR1 : ∀ {g t n}, R' g t (some ⟨sid, n⟩) → (∃ t', R g t' (some ⟨sid, n⟩) ∧ (g ≠ g0 → t' = t)) ∨
      g = g0 ∧ n = N ∧ N' = N + 1 := by
    intro g t n hr
    rcases hR _ _ _ hr with ⟨rfl, rfl, rfl⟩ | ⟨-, hr⟩
    · rcases hN with ⟨-, h | h⟩ | ⟨e, h⟩
      · exact .inl ⟨t0, h ▸ h0R, fun hn => absurd rfl hn⟩
      · exact absurd rfl (h n)
      · cases h; exact .inr ⟨rfl, rfl, e⟩
    · exact .inl ⟨t, hr, fun _ => rfl⟩
  have hR2 : ∀ {g t h}, R' g t h → g ≠ g0 → R g t h := by
    intro g t h hr hn
    rcases hR _ _ _ hr with ⟨e, -⟩ | h
    · exact absurd e hn
    · exact h.2
  have hP1 : ∀ {g ph}, P' g ph → ph ≠ .built → g ≠ g0 ∧ P g ph := by
    intro g ph hp hn
    rcases hP _ _ hp with ⟨-, h⟩ | h
    · rcases hph with e | e <;> rw [e] at h <;> cases h
      exact absurd rfl hn
    · exact h
  have hlevel : ∀ {t n}, R' g0 t (some ⟨sid, n⟩) → L ≤ n := by
    intro t n hr
    rcases hR1 hr with ⟨t', h, -⟩ | ⟨-, rfl, -⟩
    · exact b.built g0 t' n h0P h
    · exact b.level
  have hnolog : ∀ x ∈ log, x.gid ≠ g0 := by
    intro x hx e
    unfold hits at hlog
    rw [List.countP_eq_zero] at hlog
    exact hlog x hx (by simpa using e)
  have hpasses : passes g0 log = 0 := by
    have := passes_le_hits g0 log
    omega
  refine ⟨?_, fun n hn => Nat.lt_of_lt_of_le (b.obj n hn) hmono, ?_, ?_, Nat.le_trans b.level hmono, ?_, ?_, ?_, ?_, ?_,
    ?_, ?_, ?_, ?_, ?_⟩
  · intro g t n h
    rcases hR1 h with ⟨t', h, -⟩ | ⟨-, rfl, h⟩
    · exact Nat.lt_of_lt_of_le (b.lt g t' n h) hmono
    · omega
  · intro g g' t t' n h h'
    rcases hR1 h with ⟨u, h, -⟩ | ⟨rfl, rfl, e⟩
    · rcases hR1 h' with ⟨u', h', -⟩ | ⟨rfl, rfl, e⟩
      · exact b.uniq g g' u u' n h h'
      · exact absurd (b.lt g u n h) (Nat.lt_irrefl _)
    · rcases hR1 h' with ⟨u', h', -⟩ | ⟨rfl, -, e⟩
      · exact absurd (b.lt g' u' n h') (Nat.lt_irrefl _)
      · rfl
  · intro g t n h
    rcases hR1 h with ⟨t', h, -⟩ | ⟨-, rfl, h⟩
    · exact b.apart g t' n h
    · exact fun ho => absurd (b.obj n ho) (Nat.lt_irrefl _)
  · intro g ph t n hp e h
    obtain ⟨hg, hp⟩ := hP1 hp (by rcases e with rfl | rfl <;> simp)
    exact b.checked g ph t n hp e (hR2 h hg)
  · intro g t h hp hr
    obtain ⟨hg, hp⟩ := hP1 hp (by simp)
    exact b.due g t h hp (hR2 hr hg)
  · intro g t n hp h
    by_cases hg : g = g0
    · subst hg; exact hlevel h
    · rcases hP _ _ hp with ⟨e, -⟩ | ⟨-, hp⟩
      · exact absurd e hg
      · exact b.built g t n hp (hR2 h hg)
  · intro x t n hx hp h
    exact b.began x t n hx hp (hR2 h (hnolog x hx))
  · intro g t n h hlt
    by_cases hg : g = g0
    · subst hg
      have := hlevel h
      omega
    · exact b.done g t n (hR2 h hg) hlt
  · intro p x g t t' n m hx hp h h' hlt
    have hm := List.mem_of_getElem? hx
    have h := hR2 h (hnolog x hm)
    by_cases hg : g = g0
    · subst hg
      have := hlevel h'
      have := b.began x t n hm hp h
      omega
    · exact b.order p x g t t' n m hx hp h (hR2 h' hg) hlt
  · intro p q x y t t' n m hx hy hp hp' h h' hlt
    exact b.sorted p q x y t t' n m hx hy hp hp' (hR2 h (hnolog x (List.mem_of_getElem? hx)))
      (hR2 h' (hnolog y (List.mem_of_getElem? hy))) hlt
  · intro g hp
    exact b.ret g (hP1 hp (by simp)).2
  · intro hl g ph t h hp e hr
    obtain ⟨hg, hp⟩ := hP1 hp (by rcases e with rfl | rfl | rfl <;> simp)
    exact b.ceil hl g ph t h hp e (hR2 hr hg)
  · intro hl g t n h h1 h2
    by_cases hg : g = g0
    · subst hg
      omega
    · exact b.reach hl g t n (hR2 h hg) h1 h2

/-- A change of one expectation. -/
theorem SeqBook.cell {q q' : Seqs} (b : SeqBook sid O R P log (q sid).level (q sid).next) {g0 : Nat} {t0 t1 : Times}
    {h0 h1 : Option SeqHandle} {ph0 ph1 : Option Phase} (h0R : R g0 t0 h0) (h0P : ∀ ph, ph0 = some ph → P g0 ph)
    (hR : ∀ g t h, R' g t h → (g = g0 ∧ t = t1 ∧ h = h1) ∨ (g ≠ g0 ∧ R g t h))
    (hP : ∀ g ph, P' g ph → (g = g0 ∧ ph1 = some ph) ∨ (g ≠ g0 ∧ P g ph))
    (ht : Trans g0 ph0 ph1 t0 t1 h0 h1 q q' log log')
    (hnone : ph0 = none → t0.count = hits g0 log % (usizeMax + 1))
    (hmid : ph0 = some .counted ∨ ph0 = some .checked ∨ ph0 = some .due →
      t0.count = (hits g0 log + 1) % (usizeMax + 1))
    (hnew : ph0 = some .built → hits g0 log = 0) :
    SeqBook sid O R' P' log' (q' sid).level (q' sid).next ∧
      ((q' sid).level = (q sid).level ∨ (q' sid).level = (q sid).level + 1 ∧ ∃ t, R g0 t (some ⟨sid, (q sid).level⟩)) := by
  have hlen : hits g0 log ≤ log.length := List.countP_le_length
  have hle := passes_le_hits g0 log
  cases ht with
  | count hp hp' hc hr hh hq hlt hl =>
    subst hh hq hl
    refine ⟨b.quiet h0R hr hR hP (by simp [hp']) (by simp [hp']) ?_ (by simp [hp']), .inl rfl⟩
    intro hlen' _
    rw [hr]
    have := hnone hp
    rw [Nat.mod_eq_of_lt (by omega)] at this
    omega
  | refuse hp hp' hr hh hq x hx hf hl =>
    subst hh hq hl
    exact ⟨b.logged h0R hr hR hP x hx (.inl hp') (by simp [hf]) (.inl rfl) (by simp [hf]), .inl rfl⟩
  | fail hp hp' ht hh hq x hx hf hl =>
    subst ht hh hq hl
    exact ⟨b.logged h0R rfl hR hP x hx (.inl hp') (by simp [hf]) (.inl rfl) (by simp [hf]), .inl rfl⟩
  | check hp hp' ht hh hq hl hv =>
    subst ht hh hq hl
    refine ⟨b.quiet h0R rfl hR hP ?_ (by simp [hp']) ?_ (by simp [hp']), .inl rfl⟩
    · intro _ n hn
      exact hv _ hn
    · intro hlen' _
      exact b.ceil hlen' g0 .counted t1 h1 (h0P _ hp) (.inl rfl) h0R
  | due hp hp' ht hh hq hl hc =>
    subst ht hh hq hl
    refine ⟨b.quiet h0R rfl hR hP ?_ (fun _ => hc) ?_ (by simp [hp']), .inl rfl⟩
    · intro _ n hn
      exact b.checked g0 .checked t1 n (h0P _ hp) (.inl rfl) (hn ▸ h0R)
    · intro hlen' _
      exact b.ceil hlen' g0 .checked t1 h1 (h0P _ hp) (.inr (.inl rfl)) h0R
  | early hp hp' ht hh hq hc x hx hf hl =>
    subst ht hh hq hl
    refine ⟨b.logged h0R rfl hR hP x hx (.inr ⟨hp', hf⟩) ?_ (.inl rfl) ?_, .inl rfl⟩
    · intro _ n hn
      exact (b.checked g0 .checked t1 n (h0P _ hp) (.inl rfl) (hn ▸ h0R)).symm
    · intro hlen' _ n hn h1 h2
      have := hmid (.inr (.inl hp))
      rw [Nat.mod_eq_of_lt (by omega)] at this
      omega
  | free hp hp' ht hh hn hq x hx hf hl =>
    subst ht hh hq hl
    exact ⟨b.logged h0R rfl hR hP x hx (.inr ⟨hp', hf⟩) (by simp [hn]) (.inl rfl) (by simp [hn]), .inl rfl⟩
  | satisfy hp hp' ht hh d hd hlv hq x hx hf hl =>
    subst ht hh hl
    obtain ⟨dsid, dseq⟩ := d
    have hstart := b.due g0 t1 h1 (h0P _ hp) h0R
    have hcount := hmid (.inr (.inr hp))
    have hcle : t1.count ≤ hits g0 log + 1 := by rw [hcount]; exact Nat.mod_le _ _
    simp only at hlv hq
    by_cases e : dsid = sid
    · subst e
      have e1 : (q' dsid).level = (q dsid).level + 1 := by rw [hq]; simp [Seqs.set, hlv]
      have e2 : (q' dsid).next = (q dsid).next := by rw [hq]; simp [Seqs.set]
      rw [e1, e2]
      refine ⟨b.logged h0R rfl hR hP x hx (.inr ⟨hp', hf⟩) ?_ (.inr ⟨rfl, by rw [hd, hlv], by omega⟩) ?_,
        .inr ⟨rfl, t1, by rw [hlv, ← hd]; exact h0R⟩⟩
      · intro _ n hn
        rw [hd] at hn
        cases hn
        exact hlv.symm
      · intro _ _ n hn _ _
        rw [hd] at hn
        cases hn
        omega
    · have e1 : q' sid = q sid := by rw [hq]; exact if_neg (fun h => e h.symm)
      rw [e1]
      have hne : ∀ n, h1 ≠ some ⟨sid, n⟩ := by
        intro n hn
        rw [hd] at hn
        cases hn
        exact e rfl
      exact ⟨b.logged h0R rfl hR hP x hx (.inr ⟨hp', hf⟩) (fun _ n hn => absurd hn (hne n)) (.inl rfl)
        (fun _ _ n hn => absurd hn (hne n)), .inl rfl⟩
  | broken hp hp' ht hh d hd hlv hq x hx hf hl =>
    subst ht hh hl
    obtain ⟨dsid, dseq⟩ := d
    simp only at hlv hq
    by_cases e : dsid = sid
    · subst e
      exact absurd (b.checked g0 .due t1 dseq (h0P _ hp) (.inr rfl) (hd ▸ h0R)) hlv
    · have e1 : q' sid = q sid := by rw [hq]; exact if_neg (fun h => e h.symm)
      rw [e1]
      exact ⟨b.logged h0R rfl hR hP x hx (.inl hp') (by simp [hf]) (.inl rfl) (by simp [hf]), .inl rfl⟩
  | build hp hp' hl hq =>
    subst hl
    rcases hq with ⟨rfl, rfl⟩ | ⟨dsid, rfl, hq⟩
    · exact ⟨b.builds h0R (h0P _ hp) (hnew hp) hR hP hp' (.inl ⟨rfl, .inl rfl⟩), .inl rfl⟩
    · by_cases e : dsid = sid
      · subst e
        have e1 : (q' dsid).level = (q dsid).level := by rw [hq]; simp [Seqs.set]
        have e2 : (q' dsid).next = (q dsid).next + 1 := by rw [hq]; simp [Seqs.set]
        rw [e1, e2]
        exact ⟨b.builds h0R (h0P _ hp) (hnew hp) hR hP hp' (.inr ⟨rfl, rfl⟩), .inl rfl⟩
      · have e1 : q' sid = q sid := by rw [hq]; exact if_neg (fun h => e h.symm)
        rw [e1]
        refine ⟨b.builds h0R (h0P _ hp) (hnew hp) hR hP hp' (.inl ⟨rfl, .inr ?_⟩), .inl rfl⟩
        intro n hn
        cases hn
        exact e rfl

/-! ## Static methods -/

/-- Expectation number `g` of some static method has this count, window and place. -/
def TState.Rel (s : TState V) (g : Nat) (t : Times) (h : Option SeqHandle) : Prop :=
  ∃ (f : Nat) (k : Key) (i : Nat), ((s.fns f).store.marks k)[i]? = some (g, t, h)

/-- Some operation is in this phase with expectation number `g`. -/
def TState.At (s : TState V) (g : Nat) (ph : Phase) : Prop :=
  ∃ (id : Nat) (x : TAct V) (i : Nat) (t : Times) (h : Option SeqHandle), s.acts[id]? = some x ∧
    x.act.pc.phase = some (i, ph) ∧ ((s.fns x.fn).store.marks x.act.op.key)[i]? = some (g, t, h)

theorem SPc.phase_inside {pc : SPc V} {p : Nat × Phase} (h : pc.phase = some p) : pc.inside = true := by
  cases pc <;> simp_all [SPc.phase, SPc.inside, SPc.working]

theorem SPc.phase_mid {pc : SPc V} : pc.mid = match pc.phase with
    | some (i, .counted) => some i
    | some (i, .checked) => some i
    | some (i, .due) => some i
    | _ => none := by
  cases pc <;> rfl

theorem SPc.phase_bld {pc : SPc V} : pc.bld = match pc.phase with
    | some (i, .built) => some i
    | _ => none := by
  cases pc <;> rfl

theorem Store.marks_sigs {st : Store V} {k : Key} {i g : Nat} {t : Times} {h : Option SeqHandle}
    (hm : (st.marks k)[i]? = some (g, t, h)) : (st.sigs k)[i]? = some (g, t) := by
  simp only [Store.marks, Store.sigs, List.getElem?_map] at hm ⊢
  cases he : (st.vec k)[i]? with
  | none => rw [he] at hm; cases hm
  | some e => rw [he] at hm; cases hm; rfl

/-- Ghost numbers tell expectations apart. -/
theorem TState.Balanced.same {s : TState V} (hb : s.Balanced) {f f' : Nat} {k k' : Key} {i i' g : Nat} {t t' : Times}
    {h h' : Option SeqHandle} (h1 : ((s.fns f).store.marks k)[i]? = some (g, t, h))
    (h2 : ((s.fns f').store.marks k')[i']? = some (g, t', h')) :
    f = f' ∧ i = i' ∧ (s.fns f).store.alike k k' ∧ t = t' ∧ h = h' := by
  obtain ⟨rfl, rfl, ha⟩ := hb.uniq f k i g t f' k' i' t' (Store.marks_sigs h1) (Store.marks_sigs h2)
  refine ⟨rfl, rfl, ha, ?_⟩
  rw [show (s.fns f).store.marks k = (s.fns f).store.marks k' by simp only [Store.marks, Store.alike_vec ha], h2] at h1
  cases h1
  exact ⟨rfl, rfl⟩

open Classical in
/-- A step of an operation on a static method. -/
theorem SeqBook.stepAct {env : Env V} {s s' : TState V} {id : Nat} {x : TAct V} {ans : Answer V} (hinv : TInv s)
    (hb : s.Balanced) (b : SeqBook sid O s.Rel s.At s.world.log (s.world.seqs sid).level (s.world.seqs sid).next)
    (hx : s.acts[id]? = some x) (hs : s.stepAct env id x ans = some s') :
    SeqBook sid O s'.Rel s'.At s'.world.log (s'.world.seqs sid).level (s'.world.seqs sid).next ∧
      ((s'.world.seqs sid).level = (s.world.seqs sid).level ∨
        (s'.world.seqs sid).level = (s.world.seqs sid).level + 1 ∧
          ∃ g t, s.Rel g t (some ⟨sid, (s.world.seqs sid).level⟩)) := by
  obtain ⟨pc, hacts, hother, heff, hout⟩ := TState.stepAct_seq hx hs
  have hb' := hb.stepAct hinv hx hs
  have hlen := (List.getElem?_eq_some_iff.1 hx).1
  have hget : ∀ (j : Nat) (y : TAct V), s'.acts[j]? = some y →
      (j = id ∧ y = { x with act := { x.act with pc := pc } }) ∨ (j ≠ id ∧ s.acts[j]? = some y) := by
    intro j y hy
    rw [hacts, List.getElem?_set] at hy
    split at hy
    · rename_i e
      subst e
      exact .inl ⟨rfl, (Option.some.inj hy).symm⟩
    · rename_i e
      exact .inr ⟨fun e' => e e'.symm, hy⟩
  -- others in the same method are not in any phase while this one is inside
  have hexcl : ∀ (j : Nat) (y : TAct V), j ≠ id → s.acts[j]? = some y → y.fn = x.fn → y.act.pc.inside = true →
      x.act.pc.inside = true → False := by
    intro j y hj hy e hi hxi
    have h1 := hinv.holds j y hy hi
    have h2 := hinv.holds id x hx hxi
    rw [e, h2] at h1
    exact hj (Option.some.inj h1).symm
  have hRel : ∀ {f : Nat}, f ≠ x.fn → ∀ k, (s'.fns f).store.marks k = (s.fns f).store.marks k := by
    intro f hf k
    rw [hother f hf]
  by_cases hxi : x.act.pc.inside = true
  case neg =>
    obtain ⟨_, _, _, _, _, hsame⟩ := TState.stepAct_eff hx hs
    obtain ⟨-, -, hst, hw⟩ := hsame (by simpa using hxi)
    have hm : ∀ (f : Nat) k, (s'.fns f).store.marks k = (s.fns f).store.marks k := by
      intro f k
      by_cases e : f = x.fn
      · subst e; rw [hst]
      · exact hRel e k
    rw [hw]
    refine ⟨b.fewer ?_ ?_, .inl rfl⟩
    · rintro g t h ⟨f, k, i, hr⟩
      rw [hm] at hr
      exact ⟨f, k, i, hr⟩
    · rintro g ph ⟨j, y, i, t, h, hy, hp, hr⟩
      rw [hm] at hr
      rcases hget j y hy with ⟨rfl, rfl⟩ | ⟨-, hy⟩
      · rw [hout (by simpa using hxi)] at hp
        cases hp
      · exact ⟨j, y, i, t, h, hy, hp, hr⟩
  case pos =>
  have hlast : ∀ {f : Nat} {k : Key} {i g : Nat} {t : Times} {h : Option SeqHandle},
      ((s.fns f).store.marks k)[i]? = some (g, t, h) → g < s.world.fresh :=
    fun hr => hb.gid _ _ _ _ _ (Store.marks_sigs hr)
  cases heff with
  | idle hm hq hl hp =>
    have hm : ∀ (f : Nat) k, (s'.fns f).store.marks k = (s.fns f).store.marks k := by
      intro f k
      by_cases e : f = x.fn
      · subst e; rw [hm]
      · exact hRel e k
    rw [hq, hl]
    refine ⟨b.fewer ?_ ?_, .inl rfl⟩
    · rintro g t h ⟨f, k, i, hr⟩
      rw [hm] at hr
      exact ⟨f, k, i, hr⟩
    · rintro g ph ⟨j, y, i, t, h, hy, hpy, hr⟩
      rw [hm] at hr
      rcases hget j y hy with ⟨rfl, rfl⟩ | ⟨-, hy⟩
      · simp only at hpy hr
        rcases hp with hp | hp <;> rw [hp] at hpy
        · cases hpy
        · exact ⟨j, x, i, t, h, hx, hpy, hr⟩
      · exact ⟨j, y, i, t, h, hy, hpy, hr⟩
  | drained hm hq hl hp =>
    rw [hq, hl]
    refine ⟨b.fewer ?_ ?_, .inl rfl⟩
    · rintro g t h ⟨f, k, i, hr⟩
      by_cases e : f = x.fn
      · subst e; rw [hm] at hr; simp at hr
      · rw [hRel e] at hr
        exact ⟨f, k, i, hr⟩
    · rintro g ph ⟨j, y, i, t, h, hy, hpy, hr⟩
      by_cases e : y.fn = x.fn
      · rw [e, hm] at hr; simp at hr
      · rw [hRel e] at hr
        rcases hget j y hy with ⟨rfl, rfl⟩ | ⟨-, hy⟩
        · exact absurd rfl e
        · exact ⟨j, y, i, t, h, hy, hpy, hr⟩
  | added hm hq hl hp hp' =>
    rw [hq, hl]
    refine ⟨b.added (g0 := s.world.fresh) ?_ ?_, .inl rfl⟩
    · rintro g t h ⟨f, k, i, hr⟩
      by_cases e : f = x.fn
      · subst e
        rw [hm] at hr
        split at hr
        · rw [List.getElem?_append] at hr
          split at hr
          · exact .inr ⟨Nat.ne_of_lt (hlast hr), _, _, _, hr⟩
          · rw [List.getElem?_singleton] at hr
            split at hr
            · cases hr; exact .inl ⟨rfl, rfl⟩
            · cases hr
        · exact .inr ⟨Nat.ne_of_lt (hlast hr), _, _, _, hr⟩
      · rw [hRel e] at hr
        exact .inr ⟨Nat.ne_of_lt (hlast hr), _, _, _, hr⟩
    · rintro g ph ⟨j, y, i, t, h, hy, hpy, hr⟩
      rcases hget j y hy with ⟨rfl, rfl⟩ | ⟨hj, hy⟩
      · simp only at hpy hr
        rw [hp'] at hpy
        cases hpy
        rw [hm, if_pos (Store.alike_refl _ _)] at hr
        simp at hr
        exact .inl ⟨hr.1.symm, rfl⟩
      · by_cases e : y.fn = x.fn
        · exact (hexcl j y hj hy e (SPc.phase_inside hpy) hxi).elim
        · rw [hRel e] at hr
          exact .inr ⟨Nat.ne_of_lt (hlast hr), j, y, i, t, h, hy, hpy, hr⟩
  | cell i0 g0 t0 t1 h0 h1 hi hm hp hp' ht =>
    have hset : ∀ k, (s.fns x.fn).store.alike x.act.op.key k → (s.fns x.fn).store.marks x.act.op.key =
        (s.fns x.fn).store.marks k := fun k a => by simp only [Store.marks, Store.alike_vec a]
    have hMid : s.Mid x.fn x.act.op.key i0 ↔ x.act.pc.mid = some i0 := by
      constructor
      · rintro ⟨j, y, hy, e, hmid, -⟩
        by_cases hj : j = id
        · subst hj; rw [hx] at hy; cases hy; exact hmid
        · exact (hexcl j y hj hy e (SPc.mid_inside hmid) hxi).elim
      · intro hmid
        exact ⟨id, x, hx, rfl, hmid, Store.alike_refl _ _⟩
    have hcount := hb.count x.fn x.act.op.key i0 g0 t0 (Store.marks_sigs hi)
    have hphase : ∀ ph, x.act.pc.phase.map (·.2) = some ph → x.act.pc.phase = some (i0, ph) := by
      intro ph hph
      cases hpp : x.act.pc.phase with
      | none => rw [hpp] at hph; cases hph
      | some p =>
        rw [hpp] at hph
        cases hph
        rw [← hp p hpp]
    refine And.imp (fun h => h) ?_
      (b.cell (R' := s'.Rel) (P' := s'.At) (h0R := ⟨x.fn, x.act.op.key, i0, hi⟩) ?_ ?_ ?_ ht ?_ ?_ ?_)
    · rintro (h | ⟨h, t, hr⟩)
      · exact .inl h
      · exact .inr ⟨h, _, t, hr⟩
    · intro ph hph
      exact ⟨id, x, i0, t0, h0, hx, hphase ph hph, hi⟩
    · rintro g t h ⟨f, k, i, hr⟩
      by_cases e : f = x.fn
      · subst e
        rw [hm] at hr
        split at hr
        · rename_i ha
          rw [List.getElem?_set] at hr
          split at hr
          · rename_i e
            subst e
            rw [if_pos (get_lt hi)] at hr
            cases hr
            exact .inl ⟨rfl, rfl, rfl⟩
          · rename_i hne
            refine .inr ⟨?_, _, _, _, hr⟩
            rintro rfl
            exact hne (hb.same hi hr).2.1
        · rename_i ha
          refine .inr ⟨?_, _, _, _, hr⟩
          rintro rfl
          exact ha (hb.same hi hr).2.2.1
      · rw [hRel e] at hr
        refine .inr ⟨?_, _, _, _, hr⟩
        rintro rfl
        exact e (hb.same hi hr).1.symm
    · rintro g ph ⟨j, y, i, t, h, hy, hpy, hr⟩
      rcases hget j y hy with ⟨rfl, rfl⟩ | ⟨hj, hy⟩
      · simp only at hpy hr
        have := hp' _ hpy
        simp only at this
        subst this
        rw [hm, if_pos (Store.alike_refl _ _), List.getElem?_set_self (get_lt hi)] at hr
        cases hr
        exact .inl ⟨rfl, by rw [hpy]; rfl⟩
      · by_cases e : y.fn = x.fn
        · exact (hexcl j y hj hy e (SPc.phase_inside hpy) hxi).elim
        · rw [hRel e] at hr
          refine .inr ⟨?_, j, y, i, t, h, hy, hpy, hr⟩
          rintro rfl
          exact e (hb.same hi hr).1.symm
    · intro hn
      rw [hcount, one_false, Nat.add_zero]
      rw [hMid, SPc.phase_mid]
      rw [Option.map_eq_none_iff] at hn
      simp [hn]
    · intro hc
      rw [hcount, one_true]
      rw [hMid, SPc.phase_mid]
      rcases hc with hc | hc | hc <;> rw [hphase _ hc]
    · intro hc
      refine hb.new x.fn x.act.op.key i0 g0 t0 (Store.marks_sigs hi) ⟨id, x, hx, rfl, ?_, Store.alike_refl _ _⟩
      rw [SPc.phase_bld, hphase _ hc]

/-! ## Objects -/

/-- The turn moves on by an expectation of a static method. -/
theorem CSeqInv.advance {m0 : Mem V} {sid : Nat} {s : CState V} (h : CSeqInv m0 sid s) {m : Mem V}
    (hn : ∀ a, ¬ m0.member sid a (s.mem.seqs sid).level)
    (hq : (m.seqs sid).level = (s.mem.seqs sid).level + 1) : CSeqInv m0 sid ⟨m, s.acts⟩ := by
  refine ⟨?_, h.low, ?_, ?_⟩
  · intro c act a k hact hm hv
    have := h.verified c act a k hact hm hv
    exact absurd hm (this ▸ hn a)
  · intro c act a k hact hm hv hl
    have := h.late c act a k hact hm hv hl
    simp only
    omega
  · intro a k hm hlt
    simp only at hlt
    refine h.passed a k hm ?_
    have : k ≠ (s.mem.seqs sid).level := fun e => hn a (e ▸ hm)
    omega

theorem CSeqInv.congr {m0 : Mem V} {sid : Nat} {s s' : CState V} (h : CSeqInv m0 sid s)
    (hq : (s'.mem.seqs sid).level = (s.mem.seqs sid).level) (ha : s'.acts = s.acts) : CSeqInv m0 sid s' := by
  obtain ⟨h1, h2, h3, h4⟩ := h
  refine ⟨?_, ?_, ?_, ?_⟩
  · intro c act a k hact; rw [hq]; rw [ha] at hact; exact h1 c act a k hact
  · intro c act a k low hact; rw [ha] at hact; exact h2 c act a k low hact
  · intro c act a k hact; rw [hq]; rw [ha] at hact; exact h3 c act a k hact
  · intro a k; rw [hq, ha]; exact h4 a k

/-- A call does not hand out places of a sequence. -/
theorem Act.Step.next {env : CEnv V} {id : Nat} {act act' : Act V} {m m' : Mem V} (hs : Act.Step env id act m act' m')
    (sid : Nat) : (m'.seqs sid).next = (m.seqs sid).next := by
  rcases hs.seqs with h | ⟨a, -, h⟩
  · rw [h]
  · rw [h]
    unfold Common.satisfySequence Seqs.satisfy
    split
    · rename_i d _
      have : ∀ l, (m.seqs.set d.sid { m.seqs d.sid with level := l } sid).next = (m.seqs sid).next := by
        intro l
        unfold Seqs.set
        split <;> simp_all
      simp only
      split <;> exact this _
    · rfl

/-! ## Both -/

/-- What holds for sequence `sid` in every reachable state: the expectations of the objects that are in it are `times(1)`
and were there at first. -/
structure USeq (m0 : Mem V) (sid : Nat) (s : UState V) : Prop where
  objs : CSeqInv m0 sid s.objs
  book : SeqBook sid (fun n => ∃ a, m0.member sid a n) s.stats.Rel s.stats.At s.world.log (s.world.seqs sid).level
    (s.world.seqs sid).next

theorem TState.At.push {s : TState V} {y : TAct V} (hy : y.act.pc.phase = none) {g : Nat} {ph : Phase}
    (h : TState.At { s with acts := s.acts ++ [y] } g ph) : s.At g ph := by
  obtain ⟨j, z, i, t, d, hz, hp, hr⟩ := h
  simp only [List.getElem?_append] at hz
  split at hz
  · exact ⟨j, z, i, t, d, hz, hp, hr⟩
  · rw [List.getElem?_singleton] at hz
    split at hz
    · cases hz
      rw [hy] at hp
      cases hp
    · cases hz

theorem USeq.step {env : UEnv V} {m0 : Mem V} {sid : Nat} (hf : m0.Fresh1 sid) {s : UState V} (hi : UInv env m0 s)
    (hb : s.stats.Balanced) (h : USeq m0 sid s) (hl : s.calls.length ≤ usizeMax) (p : Nat) (ans : Answer V) :
    USeq m0 sid (s.step env (.step p ans)) := by
  rcases UState.step_cases env s p ans with e | ⟨i, x, x', m', ho, hx, hin, hs, e⟩ | ⟨i, x, t, ho, hx, hin, hs, e⟩
  · rw [e]; exact h
  · rw [e]
    refine ⟨h.objs.nested hf hi.base hl hx hs, ?_⟩
    have hnext := hs.next sid
    have hlevel := (h.objs.scripted ans).level_step (s := { s.objs with mem := s.objs.mem.scripted ans })
      (hi.base.scripted ans) hx hs
    have hbook := h.book
    change SeqBook sid _ s.stats.Rel s.stats.At s.world.log (m'.seqs sid).level (m'.seqs sid).next
    rw [hnext]
    rcases hlevel with hlv | ⟨a, k, -, hm, hk, hlv, -⟩
    · rw [hlv]; exact hbook
    · rw [hlv]
      change (s.world.seqs sid).level = k at hk
      subst hk
      exact hbook.advance ⟨a, hm⟩
  · rw [e]
    obtain ⟨hbook, hlevel⟩ := h.book.stepAct hi.tinv hb hx hs
    refine ⟨?_, hbook⟩
    rcases hlevel with hlv | ⟨hlv, g, u, hr⟩
    · exact h.objs.congr hlv rfl
    · exact h.objs.advance (fun a hm => h.book.apart g u _ hr ⟨a, hm⟩) hlv

theorem USeq.run {env : UEnv V} {m0 : Mem V} {sid : Nat} (hf : m0.Fresh1 sid) : ∀ (sch : List (USched V)) {s : UState V},
    UInv env m0 s → s.stats.Balanced → USeq m0 sid s → (s.run env sch).calls.length ≤ usizeMax →
    USeq m0 sid (s.run env sch)
  | [], _, _, _, h, _ => h
  | o :: sch, s, hi, hb, h, hl => by
    have hgrow : ∀ (sch : List (USched V)) (s : UState V), s.calls.length ≤ (s.run env sch).calls.length := by
      intro sch
      induction sch with
      | nil => intro s; exact Nat.le_refl _
      | cons o sch ih =>
        intro s
        refine Nat.le_trans ?_ (ih _)
        cases o with
        | call meth tid args => simp only [UState.step]; split <;> simp
        | op tid f op => simp only [UState.step]; split <;> simp
        | step p ans =>
          rcases UState.step_cases env s p ans with e | ⟨i, x, x', m', -, -, -, -, e⟩ | ⟨i, x, t, -, -, -, -, e⟩ <;>
            rw [e] <;> simp
    have hl0 := hgrow (o :: sch) s
    refine USeq.run hf sch (UInv.run [o] hi) (UState.Balanced.run [o] hi hb) ?_ hl
    change USeq m0 sid (s.step env o)
    cases o with
    | call meth tid args =>
      simp only [UState.step]
      split
      · exact ⟨h.objs.start (env := env.obj) meth tid args, h.book⟩
      · exact h
    | op tid f op =>
      simp only [UState.step]
      split
      · exact ⟨h.objs, h.book.fewer (fun _ _ _ h => h) (fun g ph h => TState.At.push (by cases op <;> rfl) h)⟩
      · exact h
    | step p ans => exact h.step hf hi hb (by omega) p ans

end Mockall
