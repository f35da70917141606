import Verif.Props.ConcStaticNestedLive
import Verif.Lemmas.SysInv
import Verif.Props.ConcStatic

/-! # Static methods used by user code: call counts (C78) -/

namespace Mockall

open Spec

variable {V : Type}

/-! ## What a step does to counts -/

/-- Do these keys reach the same vector? -/
def Store.alike (k k' : Key) : Store V → Prop
  | .concrete _ => True
  | .generic _ => k = k'

/-- The ghost number, count and window of each expectation. -/
def Store.sigs (st : Store V) (k : Key) : List (Nat × Times) := (st.vec k).map fun e => (e.gid, e.common.times)

theorem Store.alike_refl (k : Key) (st : Store V) : st.alike k k := by cases st <;> simp [Store.alike]

theorem Store.alike_symm {k k' : Key} {st : Store V} (h : st.alike k k') : st.alike k' k := by
  cases st
  · trivial
  · exact Eq.symm h

theorem Store.alike_trans {k k' k'' : Key} {st : Store V} (h : st.alike k k') (h' : st.alike k' k'') :
    st.alike k k'' := by
  cases st
  · trivial
  · exact Eq.trans h h'

theorem Store.alike_vec {k k' : Key} {st : Store V} (h : st.alike k k') : st.vec k = st.vec k' := by
  cases st with
  | concrete es => rfl
  | generic m => simp only [Store.alike] at h; rw [h]

open Classical in
theorem Store.vec_setVec_key {k : Key} {st : Store V} {i : Nat} {e : Expectation V} (h : (st.vec k)[i]? = some e)
    (es : List (Expectation V)) (k' : Key) :
    (st.setVec k es).vec k' = if st.alike k k' then es else st.vec k' := by
  cases st with
  | concrete _ => simp [Store.setVec, Store.vec, Store.alike]
  | generic m =>
    simp only [Store.setVec, Store.vec, Store.alike] at h ⊢
    rcases hg : GMap.get m k with _ | es'
    · simp [hg] at h
    · by_cases e : k = k'
      · subst e
        simp [GMap.get_put_same]
      · simp [GMap.get_put_other m e, e]

open Classical in
theorem Store.vec_push_key (k k' : Key) (st : Store V) (e : Expectation V) :
    (st.push k e).vec k' = if st.alike k k' then st.vec k ++ [e] else st.vec k' := by
  cases st with
  | concrete _ => simp [Store.push, Store.vec, Store.alike]
  | generic m =>
    simp only [Store.push, Store.vec, Store.alike]
    by_cases h : k = k'
    · subst h
      simp [GMap.get_put_same]
    · simp [GMap.get_put_other m h, h]

theorem Store.alike_setVec (k : Key) (es : List (Expectation V)) (st : Store V) (a b : Key) :
    (st.setVec k es).alike a b ↔ st.alike a b := by
  cases st with
  | concrete _ => rfl
  | generic m => simp only [Store.setVec]; split <;> rfl

theorem Store.alike_push (k : Key) (e : Expectation V) (st : Store V) (a b : Key) :
    (st.push k e).alike a b ↔ st.alike a b := by
  cases st <;> rfl

theorem Store.alike_drained (st : Store V) (a b : Key) : st.drained.alike a b ↔ st.alike a b := by
  cases st <;> rfl

theorem Store.drained_sigs (st : Store V) (k : Key) : st.drained.sigs k = [] := by
  cases st <;> rfl

open Classical in
theorem Store.setVec_sigs {k : Key} {st : Store V} {i : Nat} {e : Expectation V} (h : (st.vec k)[i]? = some e)
    (e' : Expectation V) (k' : Key) :
    (st.setVec k ((st.vec k).set i e')).sigs k' =
      if st.alike k k' then (st.sigs k).set i (e'.gid, e'.common.times) else st.sigs k' := by
  unfold Store.sigs
  rw [Store.vec_setVec_key h]
  split
  · rw [List.map_set]
  · rfl

theorem Store.setVec_sigs_same {k : Key} {st : Store V} {i : Nat} {e e' : Expectation V}
    (h : (st.vec k)[i]? = some e) (hg : e'.gid = e.gid) (ht : e'.common.times = e.common.times) :
    (st.setVec k ((st.vec k).set i e')).sigs = st.sigs := by
  funext k'
  rw [Store.setVec_sigs h]
  split
  · rename_i hs
    have : (st.sigs k)[i]? = some (e'.gid, e'.common.times) := by simp [Store.sigs, h, hg, ht]
    rw [show st.sigs k' = st.sigs k by simp only [Store.sigs, Store.alike_vec hs]]
    apply List.ext_getElem?
    intro n
    rw [List.getElem?_set]
    split
    · rename_i e
      subst e
      rw [if_pos (List.getElem?_eq_some_iff.1 this).1, this]
    · rfl
  · rfl

theorem StaticFn.edit_sigs (k : Key) (i : Nat) (g : Expectation V → Expectation V) (sf : StaticFn V)
    (hg : ∀ e, (g e).gid = e.gid) (ht : ∀ e, (g e).common.times = e.common.times) :
    (sf.edit k i g).store.sigs = sf.store.sigs ∧ ∀ a b, (sf.edit k i g).store.alike a b ↔ sf.store.alike a b := by
  unfold StaticFn.edit
  split
  · rename_i e he
    exact ⟨Store.setVec_sigs_same he (hg e) (ht e), fun a b => Store.alike_setVec _ _ _ a b⟩
  · exact ⟨rfl, fun _ _ => Iff.rfl⟩

/-- The expectation that has counted a call that is not in the log yet. -/
def SPc.mid : SPc V → Option Nat
  | .verify i => some i
  | .sat i => some i
  | .satisfy i => some i
  | _ => none

/-- The expectation that is being built. -/
def SPc.bld : SPc V → Option Nat
  | .build i _ => some i
  | _ => none

open Classical in
/-- What a step of an operation at place `pc` with key `k` does. -/
inductive CEff (k : Key) (pc pc' : SPc V) (st st' : Store V) (w w' : World V) : Prop
  | quiet (hs : st'.sigs = st.sigs) (hl : w'.log = w.log) (hf : w'.fresh = w.fresh) (hm : pc'.mid = pc.mid)
      (hb : pc'.bld = none ∨ pc'.bld = pc.bld)
  | counted (i g : Nat) (t t' : Times) (hi : (st.sigs k)[i]? = some (g, t))
      (hs : ∀ k', st'.sigs k' = if st.alike k k' then (st.sigs k).set i (g, t') else st.sigs k')
      (hc : t'.count = atomicInc t.count) (hr : t'.range = t.range)
      (hle : t.count < usizeMax → t.count + 1 < t.range.end_)
      (hl : w'.log = w.log) (hf : w'.fresh = w.fresh) (hm : pc.mid = none) (hm' : pc'.mid = some i)
      (hb : pc'.bld = none)
  | refused (i g : Nat) (t t' : Times) (hi : (st.sigs k)[i]? = some (g, t))
      (hs : ∀ k', st'.sigs k' = if st.alike k k' then (st.sigs k).set i (g, t') else st.sigs k')
      (hc : t'.count = atomicInc t.count) (hr : t'.range = t.range) (h : Hit V) (hg : h.gid = g)
      (hp : h.passed = false) (hl : w'.log = w.log ++ [h]) (hf : w'.fresh = w.fresh) (hm : pc.mid = none)
      (hm' : pc'.mid = none) (hb : pc'.bld = none)
  | logged (i g : Nat) (t : Times) (hi : (st.sigs k)[i]? = some (g, t)) (hs : st'.sigs = st.sigs) (h : Hit V)
      (hg : h.gid = g) (hl : w'.log = w.log ++ [h]) (hf : w'.fresh = w.fresh) (hm : pc.mid = some i)
      (hm' : pc'.mid = none) (hb : pc'.bld = none)
  | absent (i : Nat) (hi : (st.sigs k)[i]? = none) (hs : st'.sigs = st.sigs) (hl : w'.log = w.log)
      (hf : w'.fresh = w.fresh) (hm : pc.mid = some i) (hm' : pc'.mid = none) (hb : pc'.bld = none)
  | added (t : Times) (ht : t = Times.dflt)
      (hs : ∀ k', st'.sigs k' = if st.alike k k' then st.sigs k ++ [(w.fresh, t)] else st.sigs k')
      (hl : w'.log = w.log) (hf : w'.fresh = w.fresh + 1) (hm : pc.mid = none) (hm' : pc'.mid = none)
      (hb : pc'.bld = some (st.sigs k).length)
  | built (i g : Nat) (t t' : Times) (hi : (st.sigs k)[i]? = some (g, t))
      (hs : ∀ k', st'.sigs k' = if st.alike k k' then (st.sigs k).set i (g, t') else st.sigs k')
      (hc : t'.count = t.count) (hl : w'.log = w.log) (hf : w'.fresh = w.fresh) (hm : pc.mid = none)
      (hm' : pc'.mid = none) (hb : pc.bld = some i) (hb' : pc'.bld = none ∨ pc'.bld = some i)
  | drained (hs : ∀ k', st'.sigs k' = []) (hl : w'.log = w.log) (hf : w'.fresh = w.fresh) (hm : pc.mid = none)
      (hm' : pc'.mid = none) (hb : pc'.bld = none)

theorem Expectation.build_sig (b : Build V) (e : Expectation V) (q : Seqs) :
    (e.build b q).2.1.gid = e.gid ∧ (e.build b q).2.1.common.times.count = e.common.times.count := by
  obtain ⟨g, i, c, ⟨m, mp, sh, t⟩, r⟩ := e
  cases b <;>
    simp only [Expectation.build, Expectation.setMatcher, Expectation.setStatic, Times.times,
      Times.never, Common.inSequence] <;>
    cases r <;> (repeat' split) <;> simp_all

theorem Times.call_count (t : Times) : (t.call).2.count = atomicInc t.count ∧ (t.call).2.range = t.range :=
  ⟨rfl, rfl⟩

theorem Times.call_ok {t : Times} (h : (t.call).1 = .ok (.ok ())) : t.count + 1 < t.range.end_ := by
  unfold Times.call addOne at h
  simp only at h
  split at h
  · cases h
  · rename_i n hn
    split at hn
    · cases hn
    · cases hn
      repeat' split at h
      all_goals simp_all

theorem SAct.inner_eff (env : Env V) (act : SAct V) (sf : StaticFn V) (w : World V) (h : act.pc.working = true) :
    CEff act.op.key act.pc (act.inner env sf w).1 sf.store (act.inner env sf w).2.1.store w (act.inner env sf w).2.2 ∧
    ∀ a b, (act.inner env sf w).2.1.store.alike a b ↔ sf.store.alike a b := by
  obtain ⟨tid, op, pc⟩ := act
  have hsig : ∀ {i : Nat} {e : Expectation V}, (sf.store.vec op.key)[i]? = some e →
      (sf.store.sigs op.key)[i]? = some (e.gid, e.common.times) := by
    intro i e he
    simp [Store.sigs, he]
  have hsig0 : ∀ {i : Nat}, (sf.store.vec op.key)[i]? = none → (sf.store.sigs op.key)[i]? = none := by
    intro i he
    simp only [Store.sigs, List.getElem?_map, he, Option.map_none]
  cases pc with
  | scan i =>
    simp only [SAct.inner]
    split
    · exact ⟨.quiet rfl rfl rfl rfl (.inl rfl), fun _ _ => Iff.rfl⟩
    · rename_i e he
      refine ⟨.quiet (Store.setVec_sigs_same he rfl ?_) rfl rfl ?_ ?_, fun a b => Store.alike_setVec _ _ _ a b⟩
      · simp only [Expectation.matches, Common.matches]
        repeat' split
        all_goals rfl
      · simp only
        split <;> rfl
      · left
        simp only
        split <;> rfl
  | check i =>
    simp only [SAct.inner]
    repeat' split
    all_goals exact ⟨.quiet rfl rfl rfl rfl (.inl rfl), fun _ _ => Iff.rfl⟩
  | inc i =>
    simp only [SAct.inner]
    split
    · exact ⟨.quiet rfl rfl rfl rfl (.inl rfl), fun _ _ => Iff.rfl⟩
    · rename_i e he
      split
      · exact ⟨.refused i e.gid e.common.times _ (hsig he) (fun k' => Store.setVec_sigs he _ k') rfl rfl _ rfl rfl rfl
          rfl rfl rfl rfl, fun a b => Store.alike_setVec _ _ _ a b⟩
      · exact ⟨.refused i e.gid e.common.times _ (hsig he) (fun k' => Store.setVec_sigs he _ k') rfl rfl _ rfl rfl rfl
          rfl rfl rfl rfl, fun a b => Store.alike_setVec _ _ _ a b⟩
      · rename_i hok
        exact ⟨.counted i e.gid e.common.times _ (hsig he) (fun k' => Store.setVec_sigs he _ k') rfl rfl
          (fun _ => Times.call_ok hok) rfl rfl rfl rfl rfl, fun a b => Store.alike_setVec _ _ _ a b⟩
  | verify i =>
    simp only [SAct.inner]
    split
    · rename_i he
      exact ⟨.absent i (hsig0 he) rfl rfl rfl rfl rfl rfl, fun _ _ => Iff.rfl⟩
    · rename_i e he
      split
      · exact ⟨.logged i e.gid _ (hsig he) rfl _ rfl rfl rfl rfl rfl rfl, fun _ _ => Iff.rfl⟩
      · exact ⟨.quiet rfl rfl rfl rfl (.inl rfl), fun _ _ => Iff.rfl⟩
  | sat i =>
    simp only [SAct.inner]
    split
    · rename_i he
      exact ⟨.absent i (hsig0 he) rfl rfl rfl rfl rfl rfl, fun _ _ => Iff.rfl⟩
    · rename_i e he
      split
      · exact ⟨.quiet rfl rfl rfl rfl (.inl rfl), fun _ _ => Iff.rfl⟩
      · exact ⟨.logged i e.gid _ (hsig he) rfl _ rfl rfl rfl rfl rfl rfl, fun _ _ => Iff.rfl⟩
  | satisfy i =>
    simp only [SAct.inner]
    split
    · rename_i he
      exact ⟨.absent i (hsig0 he) rfl rfl rfl rfl rfl rfl, fun _ _ => Iff.rfl⟩
    · rename_i e he
      split
      · exact ⟨.logged i e.gid _ (hsig he) rfl _ rfl rfl rfl rfl rfl rfl, fun _ _ => Iff.rfl⟩
      · exact ⟨.logged i e.gid _ (hsig he) rfl _ rfl rfl rfl rfl rfl rfl, fun _ _ => Iff.rfl⟩
  | ret i =>
    simp only [SAct.inner]
    split
    · exact ⟨.quiet rfl rfl rfl rfl (.inl rfl), fun _ _ => Iff.rfl⟩
    · rename_i e he
      obtain ⟨h1, h2⟩ := Expectation.ret_call_frame (env.cx tid) (sf.mi.fn op.key) op.args e w
      refine ⟨.quiet (Store.setVec_sigs_same he ?_ ?_) ?_ ?_ rfl (.inl rfl), fun a b => Store.alike_setVec _ _ _ a b⟩
      · rw [h1]
      · rw [h1]
      · rw [h2]
      · rw [h2]
  | push =>
    simp only [SAct.inner]
    refine ⟨.added Times.dflt rfl ?_ rfl rfl rfl rfl ?_, fun a b => Store.alike_push _ _ _ a b⟩
    · intro k'
      simp only [Store.sigs, Store.vec_push_key]
      split
      · simp only [List.map_append, List.map_cons, List.map_nil]
        rfl
      · rfl
    · simp [SPc.bld, Store.sigs]
  | build i bs =>
    simp only [SAct.inner]
    split
    · exact ⟨.quiet rfl rfl rfl rfl (.inl rfl), fun _ _ => Iff.rfl⟩
    · exact ⟨.quiet rfl rfl rfl rfl (.inl rfl), fun _ _ => Iff.rfl⟩
    · rename_i e b bs' he
      obtain ⟨h1, h2⟩ := Expectation.build_sig b e w.seqs
      split
      · refine ⟨.built i e.gid e.common.times (e.build b w.seqs).2.1.common.times (hsig he) ?_ h2 rfl rfl rfl rfl rfl
          (.inl rfl), fun a b => Store.alike_setVec _ _ _ a b⟩
        intro k'
        rw [Store.setVec_sigs he, h1]
      · refine ⟨.built i e.gid e.common.times (e.build b w.seqs).2.1.common.times (hsig he) ?_ h2 rfl rfl rfl rfl rfl
          (.inr rfl), fun a b => Store.alike_setVec _ _ _ a b⟩
        intro k'
        rw [Store.setVec_sigs he]
        simp only [h1]
  | drain =>
    simp only [SAct.inner]
    exact ⟨.drained (Store.drained_sigs _) rfl rfl rfl rfl rfl, fun a b => Store.alike_drained _ a b⟩
  | _ => simp [SPc.working] at h

theorem SAct.step_eff {env : Env V} {id : Nat} {act : SAct V} {t t' : SState V} (h : act.step env id t = some t') :
    ∃ pc, t'.acts = t.acts.set id { act with pc := pc } ∧
      CEff act.op.key act.pc pc t.sf.store t'.sf.store t.world t'.world ∧
      (∀ a b, t'.sf.store.alike a b ↔ t.sf.store.alike a b) ∧
      (act.pc.inside = false → pc.mid = none ∧ pc.bld = none ∧ t'.sf.store = t.sf.store ∧ t'.world = t.world) := by
  obtain ⟨tid, op, pc⟩ := act
  have hwork : ∀ (hw : pc.working = true), SAct.step env id ⟨tid, op, pc⟩ t =
      some { t with sf := (SAct.inner env ⟨tid, op, pc⟩ t.sf t.world).2.1
                    world := (SAct.inner env ⟨tid, op, pc⟩ t.sf t.world).2.2
                    acts := t.acts.set id ⟨tid, op, (SAct.inner env ⟨tid, op, pc⟩ t.sf t.world).1⟩ } := by
    intro hw
    cases pc <;> simp only [SPc.working, Bool.false_eq_true] at hw <;> rfl
  by_cases hw : pc.working = true
  · rw [hwork hw] at h
    cases h
    have hl := SAct.inner_eff env ⟨tid, op, pc⟩ t.sf t.world hw
    refine ⟨_, rfl, hl.1, hl.2, ?_⟩
    intro hc
    cases pc <;> simp_all [SPc.working, SPc.inside]
  · cases pc with
    | clear => cases h; exact ⟨.tryWait, rfl, .quiet rfl rfl rfl rfl (.inl rfl), fun _ _ => Iff.rfl, fun _ => ⟨rfl, rfl, rfl, rfl⟩⟩
    | tryWait =>
      simp only [SAct.step] at h
      split at h
      · cases h
      · split at h <;> cases h <;>
          exact ⟨_, rfl, .quiet rfl rfl rfl rfl (.inl rfl), fun _ _ => Iff.rfl, fun _ => ⟨rfl, rfl, rfl, rfl⟩⟩
    | wait =>
      simp only [SAct.step] at h
      split at h
      · cases h
      · split at h <;> cases h
        · exact ⟨_, rfl, .quiet rfl rfl rfl rfl (.inl rfl), fun _ _ => Iff.rfl, fun _ => ⟨rfl, rfl, rfl, rfl⟩⟩
        · have : op.first.mid = none ∧ op.first.bld = none := by cases op <;> exact ⟨rfl, rfl⟩
          exact ⟨_, rfl, .quiet rfl rfl rfl this.1 (.inl this.2), fun _ _ => Iff.rfl,
            fun _ => ⟨this.1, this.2, rfl, rfl⟩⟩
    | leave r => cases h; exact ⟨_, rfl, .quiet rfl rfl rfl rfl (.inl rfl), fun _ _ => Iff.rfl, by simp [SPc.inside]⟩
    | answer r => cases h; exact ⟨_, rfl, .quiet rfl rfl rfl rfl (.inl rfl), fun _ _ => Iff.rfl, fun _ => ⟨rfl, rfl, rfl, rfl⟩⟩
    | leaveExpect i r =>
      cases h; exact ⟨_, rfl, .quiet rfl rfl rfl rfl (.inl rfl), fun _ _ => Iff.rfl, by simp [SPc.inside]⟩
    | leaveDrain es =>
      cases h; exact ⟨_, rfl, .quiet rfl rfl rfl rfl (.inl rfl), fun _ _ => Iff.rfl, by simp [SPc.inside]⟩
    | dropping p es =>
      cases es with
      | nil =>
        cases h
        exact ⟨_, rfl, .quiet rfl rfl rfl rfl (.inl rfl), fun _ _ => Iff.rfl, fun _ => ⟨rfl, rfl, rfl, rfl⟩⟩
      | cons e es =>
        simp only [SAct.step] at h
        repeat' split at h
        all_goals
          cases h
          exact ⟨_, rfl, .quiet rfl rfl rfl rfl (.inl rfl), fun _ _ => Iff.rfl, fun _ => ⟨rfl, rfl, rfl, rfl⟩⟩
    | done o => cases h
    | _ => simp [SPc.working] at hw

open Classical in
/-- Only numbers, counts, windows and keys matter. -/
theorem CEff.congr {k : Key} {pc pc' : SPc V} {st st' st0 st0' : Store V} {w w' : World V}
    (h : CEff k pc pc' st st' w w') (hs : st0.sigs = st.sigs) (hs' : st0'.sigs = st'.sigs)
    (hk : ∀ a b, st0.alike a b ↔ st.alike a b) : CEff k pc pc' st0 st0' w w' := by
  have hk' : ∀ (b : Key) (p q : List (Nat × Times)),
      (if st.alike k b then p else q) = if st0.alike k b then p else q := by
    intro b p q
    by_cases hc : st.alike k b
    · rw [if_pos hc, if_pos ((hk k b).2 hc)]
    · rw [if_neg hc, if_neg fun h => hc ((hk k b).1 h)]
  cases h with
  | quiet h1 h2 h3 h4 h5 => exact .quiet (by rw [hs, hs', h1]) h2 h3 h4 h5
  | counted i g t t' hi h1 hc hr hle hl hf hm hm' hb =>
    exact .counted i g t t' (by rw [hs]; exact hi)
      (fun k' => by rw [hs', hs, h1 k', hk']) hc hr hle hl hf hm hm' hb
  | refused i g t t' hi h1 hc hr h hg hp hl hf hm hm' hb =>
    exact .refused i g t t' (by rw [hs]; exact hi)
      (fun k' => by rw [hs', hs, h1 k', hk']) hc hr h hg hp hl hf hm hm' hb
  | logged i g t hi h1 h hg hl hf hm hm' hb =>
    exact .logged i g t (by rw [hs]; exact hi) (by rw [hs, hs', h1]) h hg hl hf hm hm' hb
  | absent i hi h1 hl hf hm hm' hb =>
    exact .absent i (by rw [hs]; exact hi) (by rw [hs, hs', h1]) hl hf hm hm' hb
  | added t ht h1 hl hf hm hm' hb =>
    exact .added t ht (fun k' => by rw [hs', hs, h1 k', hk']) hl hf hm hm' (by rw [hs]; exact hb)
  | built i g t t' hi h1 hc hl hf hm hm' hb hb' =>
    exact .built i g t t' (by rw [hs]; exact hi)
      (fun k' => by rw [hs', hs, h1 k', hk']) hc hl hf hm hm' hb hb'
  | drained h1 hl hf hm hm' hb => exact .drained (fun k' => by rw [hs', h1]) hl hf hm hm' hb

theorem TState.stepAct_eff {env : Env V} {s s' : TState V} {id : Nat} {x : TAct V} {ans : Answer V}
    (hx : s.acts[id]? = some x) (h : s.stepAct env id x ans = some s') :
    ∃ pc, s'.acts = s.acts.set id { x with act := { x.act with pc := pc } } ∧
      (∀ g, g ≠ x.fn → s'.fns g = s.fns g) ∧
      CEff x.act.op.key x.act.pc pc (s.fns x.fn).store (s'.fns x.fn).store s.world s'.world ∧
      (∀ a b, (s'.fns x.fn).store.alike a b ↔ (s.fns x.fn).store.alike a b) ∧
      (x.act.pc.inside = false → pc.mid = none ∧ pc.bld = none ∧ (s'.fns x.fn).store = (s.fns x.fn).store ∧
        s'.world = s.world) := by
  obtain ⟨pc0, hacts0, hother, hst, -⟩ := TState.stepAct_shape hx h
  have h0 := h
  unfold TState.stepAct at h
  simp only at h
  split at h
  · cases h
  · rename_i t ht
    obtain ⟨pc, h1, h2, h3, h4⟩ := SAct.step_eff ht
    have hlen := (List.getElem?_eq_some_iff.1 hx).1
    refine ⟨pc, ?_, fun g hg => (hother g hg).1, ?_, ?_, ?_⟩
    · cases h
      simp only [h1]
      congr 2
      rw [List.getElem?_set_self (by simpa using hlen)]
      rfl
    · cases h
      simp only [if_true]
      cases hp : x.act.pc.place with
      | none => simpa only [hp] using h2
      | some i =>
        simp only [hp] at h2 ⊢
        obtain ⟨e1, e2⟩ := StaticFn.edit_sigs x.act.op.key i (Expectation.scripted ans) (s.fns x.fn)
          (fun _ => rfl) (fun _ => rfl)
        refine h2.congr e1.symm ?_ fun a b => (e2 a b).symm
        split
        · rename_i e _
          exact (StaticFn.edit_sigs x.act.op.key i (Expectation.restored e) t.sf (fun _ => rfl) (fun _ => rfl)).1
        · rfl
    · intro a b
      cases h
      simp only [if_true]
      cases hp : x.act.pc.place with
      | none => simpa only [hp] using h3 a b
      | some i =>
        simp only [hp] at h3 ⊢
        have e2 := (StaticFn.edit_sigs x.act.op.key i (Expectation.scripted ans) (s.fns x.fn)
          (fun _ => rfl) (fun _ => rfl)).2 a b
        refine Iff.trans ?_ ((h3 a b).trans e2)
        split
        · rename_i e _
          exact (StaticFn.edit_sigs x.act.op.key i (Expectation.restored e) t.sf (fun _ => rfl) (fun _ => rfl)).2 a b
        · rfl
    · intro hi
      exact ⟨(h4 hi).1, (h4 hi).2.1, hst hi⟩

/-! ## The books -/

open Classical in
/-- One if `p` holds. -/
noncomputable def one (p : Prop) : Nat := if p then 1 else 0

theorem one_true {p : Prop} (h : p) : one p = 1 := by simp [one, h]

theorem one_false {p : Prop} (h : ¬ p) : one p = 0 := by simp [one, h]

theorem one_congr {p q : Prop} (h : p ↔ q) : one p = one q := by rw [propext h]

/-- The relation between counts and the record of calls: `S f k` are the expectations of method `f` for key `k`,
`A` tells which keys are the same for a method, `M` the expectations that have counted a call which is
not recorded yet, and `B` those being built. -/
structure Books (A : Nat → Key → Key → Prop) (S : Nat → Key → List (Nat × Times)) (fresh : Nat) (log : List (Hit V))
    (M B : Nat → Key → Nat → Prop) : Prop where
  gid : ∀ (f : Nat) (k : Key) (i g : Nat) (t : Times), (S f k)[i]? = some (g, t) → g < fresh
  past : ∀ h ∈ log, h.gid < fresh
  uniq : ∀ (f : Nat) (k : Key) (i g : Nat) (t : Times) (f' : Nat) (k' : Key) (i' : Nat) (t' : Times),
    (S f k)[i]? = some (g, t) → (S f' k')[i']? = some (g, t') → f = f' ∧ i = i' ∧ A f k k'
  count : ∀ (f : Nat) (k : Key) (i g : Nat) (t : Times), (S f k)[i]? = some (g, t) →
    t.count = (hits g log + one (M f k i)) % (usizeMax + 1)
  new : ∀ (f : Nat) (k : Key) (i g : Nat) (t : Times), (S f k)[i]? = some (g, t) → B f k i → hits g log = 0
  ceil : log.length < usizeMax → ∀ (f : Nat) (k : Key) (i g : Nat) (t : Times), (S f k)[i]? = some (g, t) →
    passes g log + one (M f k i) = 0 ∨ passes g log + one (M f k i) < t.range.end_

theorem hits_other {g : Nat} {log hs : List (Hit V)} (h : ∀ x ∈ hs, x.gid ≠ g) :
    hits g (log ++ hs) = hits g log ∧ passes g (log ++ hs) = passes g log := by
  have h1 : hits g hs = 0 := by
    unfold hits; rw [List.countP_eq_zero]; intro x hx; simpa using h x hx
  have h2 := passes_le_hits g hs
  constructor
  · unfold hits at h1 ⊢; rw [List.countP_append, h1]; rfl
  · have : passes g hs = 0 := by omega
    unfold passes at this ⊢; rw [List.countP_append, this]; rfl

/-- A change of one expectation. -/
theorem Books.cell {A : Nat → Key → Key → Prop} {S S' : Nat → Key → List (Nat × Times)} {fresh : Nat}
    {log : List (Hit V)} {M B M' B' : Nat → Key → Nat → Prop} (h : Books A S fresh log M B)
    (hA : ∀ f k k' k'', A f k k' → A f k k'' → A f k' k'')
    (hAS : ∀ f k k', A f k k' → S f k = S f k')
    {f0 : Nat} {k0 : Key} {i0 g0 : Nat} {t0 t1 : Times} (hi : (S f0 k0)[i0]? = some (g0, t0))
    (hS : ∀ (f : Nat) (k : Key) (j g : Nat) (t : Times), (S' f k)[j]? = some (g, t) →
      (f = f0 ∧ A f0 k0 k ∧ j = i0 ∧ g = g0 ∧ t = t1) ∨
      ((S f k)[j]? = some (g, t) ∧ ¬ (f = f0 ∧ A f0 k0 k ∧ j = i0)))
    (hs : List (Hit V)) (hh : ∀ x ∈ hs, x.gid = g0)
    (hM : ∀ f k j, ¬ (f = f0 ∧ A f0 k0 k ∧ j = i0) → (M' f k j ↔ M f k j))
    (hB : ∀ f k j, B' f k j → B f k j)
    (hcount : ∀ k, A f0 k0 k → t1.count = (hits g0 (log ++ hs) + one (M' f0 k i0)) % (usizeMax + 1))
    (hfresh : ∀ k, A f0 k0 k → B' f0 k i0 → hs = [])
    (hceil : (log ++ hs).length < usizeMax → ∀ k, A f0 k0 k →
      passes g0 (log ++ hs) + one (M' f0 k i0) = 0 ∨ passes g0 (log ++ hs) + one (M' f0 k i0) < t1.range.end_) :
    Books A S' fresh (log ++ hs) M' B' := by
  have hne : ∀ {f : Nat} {k : Key} {j g : Nat} {t : Times}, (S f k)[j]? = some (g, t) →
      ¬ (f = f0 ∧ A f0 k0 k ∧ j = i0) → g ≠ g0 := by
    intro f k j g t h1 h2 e
    subst e
    obtain ⟨rfl, rfl, h5⟩ := h.uniq f0 k0 i0 g t0 f k j t hi h1
    exact h2 ⟨rfl, h5, rfl⟩
  have hother : ∀ {g : Nat}, g ≠ g0 → hits g (log ++ hs) = hits g log ∧ passes g (log ++ hs) = passes g log := by
    intro g hg
    refine hits_other ?_
    intro x hx e
    exact hg (e.symm.trans (hh x hx))
  refine ⟨?_, ?_, ?_, ?_, ?_, ?_⟩
  · intro f k j g t hj
    rcases hS f k j g t hj with ⟨-, -, -, rfl, -⟩ | ⟨hj, -⟩
    · exact h.gid _ _ _ _ _ hi
    · exact h.gid _ _ _ _ _ hj
  · intro x hx
    rcases List.mem_append.1 hx with hx | hx
    · exact h.past x hx
    · rw [hh x hx]; exact h.gid _ _ _ _ _ hi
  · intro f k j g t f' k' j' t' hj hj'
    rcases hS f k j g t hj with ⟨rfl, a, rfl, rfl, -⟩ | ⟨hj, hn⟩
    · rcases hS f' k' j' g t' hj' with ⟨rfl, a', rfl, -, -⟩ | ⟨hj', hn'⟩
      · exact ⟨rfl, rfl, hA _ _ _ _ a a'⟩
      · exact absurd rfl (hne hj' hn')
    · rcases hS f' k' j' g t' hj' with ⟨rfl, a', rfl, rfl, -⟩ | ⟨hj', hn'⟩
      · exact absurd rfl (hne hj hn)
      · exact h.uniq f k j g t f' k' j' t' hj hj'
  · intro f k j g t hj
    rcases hS f k j g t hj with ⟨rfl, a, rfl, rfl, rfl⟩ | ⟨hj, hn⟩
    · exact hcount k a
    · rw [(hother (hne hj hn)).1, one_congr (hM f k j hn)]
      exact h.count f k j g t hj
  · intro f k j g t hj hb
    rcases hS f k j g t hj with ⟨rfl, a, rfl, rfl, rfl⟩ | ⟨hj, hn⟩
    · rw [hfresh k a hb, List.append_nil]
      refine h.new f k j g t0 ?_ (hB f k j hb)
      rw [← hAS _ _ _ a]
      exact hi
    · rw [(hother (hne hj hn)).1]
      exact h.new f k j g t hj (hB f k j hb)
  · intro hlen f k j g t hj
    rcases hS f k j g t hj with ⟨rfl, a, rfl, rfl, rfl⟩ | ⟨hj, hn⟩
    · exact hceil hlen k a
    · rw [(hother (hne hj hn)).2, one_congr (hM f k j hn)]
      exact h.ceil (by simp only [List.length_append] at hlen; omega) f k j g t hj

theorem set_lookup {A : Nat → Key → Key → Prop} {S S' : Nat → Key → List (Nat × Times)} {f0 : Nat} {k0 : Key}
    {i0 g0 : Nat} {t0 t1 : Times} (hAS : ∀ f k k', A f k k' → S f k = S f k')
    (hi : (S f0 k0)[i0]? = some (g0, t0))
    (h0 : ∀ f k, f ≠ f0 → S' f k = S f k) (h1 : ∀ k, A f0 k0 k → S' f0 k = (S f0 k0).set i0 (g0, t1))
    (h2 : ∀ k, ¬ A f0 k0 k → S' f0 k = S f0 k) :
    ∀ (f : Nat) (k : Key) (j g : Nat) (t : Times), (S' f k)[j]? = some (g, t) →
      (f = f0 ∧ A f0 k0 k ∧ j = i0 ∧ g = g0 ∧ t = t1) ∨
      ((S f k)[j]? = some (g, t) ∧ ¬ (f = f0 ∧ A f0 k0 k ∧ j = i0)) := by
  intro f k j g t hj
  by_cases e : f = f0
  · subst e
    by_cases a : A f k0 k
    · rw [h1 k a, List.getElem?_set] at hj
      split at hj
      · rename_i e
        subst e
        rw [if_pos (List.getElem?_eq_some_iff.1 hi).1] at hj
        cases hj
        exact .inl ⟨rfl, a, rfl, rfl, rfl⟩
      · rename_i e
        rw [hAS _ _ _ a] at hj
        exact .inr ⟨hj, fun hc => e hc.2.2.symm⟩
    · rw [h2 k a] at hj
      exact .inr ⟨hj, fun hc => a hc.2.1⟩
  · rw [h0 f k e] at hj
    exact .inr ⟨hj, fun hc => e hc.1⟩

/-- The expectation has counted a call that is not recorded yet. -/
def TState.Mid (s : TState V) (f : Nat) (k : Key) (i : Nat) : Prop :=
  ∃ (id : Nat) (x : TAct V), s.acts[id]? = some x ∧ x.fn = f ∧ x.act.pc.mid = some i ∧
    (s.fns f).store.alike x.act.op.key k

/-- The expectation is being built. -/
def TState.Bld (s : TState V) (f : Nat) (k : Key) (i : Nat) : Prop :=
  ∃ (id : Nat) (x : TAct V), s.acts[id]? = some x ∧ x.fn = f ∧ x.act.pc.bld = some i ∧
    (s.fns f).store.alike x.act.op.key k

/-- The books of a state are in order. -/
def TState.Balanced (s : TState V) : Prop :=
  Books (fun f k k' => (s.fns f).store.alike k k') (fun f k => (s.fns f).store.sigs k) s.world.fresh s.world.log
    s.Mid s.Bld

theorem SPc.mid_inside {pc : SPc V} {i : Nat} (h : pc.mid = some i) : pc.inside = true := by
  cases pc <;> simp_all [SPc.mid, SPc.inside, SPc.working]

theorem SPc.bld_inside {pc : SPc V} {i : Nat} (h : pc.bld = some i) : pc.inside = true := by
  cases pc <;> simp_all [SPc.bld, SPc.inside, SPc.working]

theorem atomicInc_wrap (n : Nat) : atomicInc (n % (usizeMax + 1)) = (n + 1) % (usizeMax + 1) := by
  unfold atomicInc
  have := Nat.mod_lt n (show 0 < usizeMax + 1 by omega)
  split
  · rename_i h
    rw [Nat.add_mod, h]
    simp [Nat.mod_eq_of_lt, usizeMax]
  · rename_i h
    rw [Nat.add_mod]
    rw [Nat.mod_eq_of_lt (a := 1) (by simp [usizeMax])]
    rw [Nat.mod_eq_of_lt (a := n % (usizeMax + 1) + 1)]
    omega

theorem TState.Balanced.stepAct {env : Env V} {s s' : TState V} (hinv : TInv s) (h : s.Balanced) {id : Nat}
    {x : TAct V} {ans : Answer V} (hx : s.acts[id]? = some x) (hs : s.stepAct env id x ans = some s') :
    s'.Balanced := by
  obtain ⟨pc, hacts, hother, heff, hsame, hout⟩ := TState.stepAct_eff hx hs
  have hlen := (List.getElem?_eq_some_iff.1 hx).1
  have hget : ∀ (j : Nat) (y : TAct V), s'.acts[j]? = some y →
      (j = id ∧ y = { x with act := { x.act with pc := pc } }) ∨ (j ≠ id ∧ s.acts[j]? = some y) := by
    intro j y hy
    rw [hacts, List.getElem?_set] at hy
    split at hy
    · rename_i e
      subst e
      exact .inl ⟨rfl, (Option.some.inj hy).symm⟩
    · rename_i e
      exact .inr ⟨fun e' => e e'.symm, hy⟩
  have hkeep : ∀ (j : Nat) (y : TAct V), j ≠ id → s.acts[j]? = some y → s'.acts[j]? = some y := by
    intro j y hj hy
    rw [hacts, List.getElem?_set_ne (fun e => hj e.symm)]
    exact hy
  have hself : s'.acts[id]? = some { x with act := { x.act with pc := pc } } := by
    rw [hacts, List.getElem?_set_self hlen]
  have hsame' : ∀ f a b, (s'.fns f).store.alike a b ↔ (s.fns f).store.alike a b := by
    intro f a b
    by_cases e : f = x.fn
    · subst e; exact hsame a b
    · rw [hother f e]
  -- who is inside
  have hexcl : ∀ (j : Nat) (y : TAct V), s.acts[j]? = some y → y.fn = x.fn → y.act.pc.inside = true →
      x.act.pc.inside = true → j = id := by
    intro j y hy e hi hxi
    have h1 := hinv.holds j y hy hi
    have h2 := hinv.holds id x hx hxi
    rw [e, h2] at h1
    exact (Option.some.inj h1).symm
  have hM : ∀ f k i, s'.Mid f k i ↔
      (f = x.fn ∧ pc.mid = some i ∧ (s.fns f).store.alike x.act.op.key k) ∨
      (¬ (f = x.fn ∧ x.act.pc.inside = true) ∧ s.Mid f k i) := by
    intro f k i
    constructor
    · rintro ⟨j, y, hy, e, hm, hk⟩
      rw [hsame'] at hk
      rcases hget j y hy with ⟨rfl, rfl⟩ | ⟨hj, hy⟩
      · subst e
        exact .inl ⟨rfl, hm, hk⟩
      · refine .inr ⟨?_, j, y, hy, e, hm, hk⟩
        rintro ⟨rfl, hxi⟩
        exact hj (hexcl j y hy e (SPc.mid_inside hm) hxi)
    · rintro (⟨rfl, hm, hk⟩ | ⟨hn, j, y, hy, e, hm, hk⟩)
      · exact ⟨id, _, hself, rfl, hm, (hsame' _ _ _).2 hk⟩
      · have hj : j ≠ id := by
          rintro rfl
          rw [hx] at hy
          cases hy
          exact hn ⟨e.symm, SPc.mid_inside hm⟩
        exact ⟨j, y, hkeep j y hj hy, e, hm, (hsame' _ _ _).2 hk⟩
  have hMx : x.act.pc.inside = true → ∀ k i, s.Mid x.fn k i ↔
      x.act.pc.mid = some i ∧ (s.fns x.fn).store.alike x.act.op.key k := by
    intro hxi k i
    constructor
    · rintro ⟨j, y, hy, e, hm, hk⟩
      have := hexcl j y hy e (SPc.mid_inside hm) hxi
      subst this
      rw [hx] at hy
      cases hy
      exact ⟨hm, hk⟩
    · rintro ⟨hm, hk⟩
      exact ⟨id, x, hx, rfl, hm, hk⟩
  have hB : ∀ f k i, s'.Bld f k i ↔
      (f = x.fn ∧ pc.bld = some i ∧ (s.fns f).store.alike x.act.op.key k) ∨
      (¬ (f = x.fn ∧ x.act.pc.inside = true) ∧ s.Bld f k i) := by
    intro f k i
    constructor
    · rintro ⟨j, y, hy, e, hm, hk⟩
      rw [hsame'] at hk
      rcases hget j y hy with ⟨rfl, rfl⟩ | ⟨hj, hy⟩
      · subst e
        exact .inl ⟨rfl, hm, hk⟩
      · refine .inr ⟨?_, j, y, hy, e, hm, hk⟩
        rintro ⟨rfl, hxi⟩
        exact hj (hexcl j y hy e (SPc.bld_inside hm) hxi)
    · rintro (⟨rfl, hm, hk⟩ | ⟨hn, j, y, hy, e, hm, hk⟩)
      · exact ⟨id, _, hself, rfl, hm, (hsame' _ _ _).2 hk⟩
      · have hj : j ≠ id := by
          rintro rfl
          rw [hx] at hy
          cases hy
          exact hn ⟨e.symm, SPc.bld_inside hm⟩
        exact ⟨j, y, hkeep j y hj hy, e, hm, (hsame' _ _ _).2 hk⟩
  -- the keys are the same ones
  have hcong : Books (fun f k k' => (s.fns f).store.alike k k') (fun f k => (s'.fns f).store.sigs k) s'.world.fresh
      s'.world.log s'.Mid s'.Bld → s'.Balanced := by
    intro hb
    exact ⟨hb.gid, hb.past, fun f k i g t f' k' i' t' h1 h2 => by
      obtain ⟨a, b, c⟩ := hb.uniq f k i g t f' k' i' t' h1 h2
      exact ⟨a, b, (hsame' _ _ _).2 c⟩, hb.count, hb.new, hb.ceil⟩
  apply hcong
  have hA : ∀ (f : Nat) (k k' k'' : Key), (s.fns f).store.alike k k' → (s.fns f).store.alike k k'' →
      (s.fns f).store.alike k' k'' := fun f k k' k'' a b => Store.alike_trans (Store.alike_symm a) b
  have hAS : ∀ (f : Nat) (k k' : Key), (s.fns f).store.alike k k' →
      (s.fns f).store.sigs k = (s.fns f).store.sigs k' := fun f k k' a => by
    simp only [Store.sigs, Store.alike_vec a]
  unfold TState.Balanced at h
  by_cases hxi : x.act.pc.inside = true
  case neg =>
    -- nothing happens
    have hxi' : x.act.pc.inside = false := by simpa using hxi
    obtain ⟨hm, hb, hst, hw⟩ := hout hxi'
    have e1 : s'.Mid = s.Mid := by
      funext f k i
      rw [propext (hM f k i)]
      simp [hm, hxi']
    have e2 : s'.Bld = s.Bld := by
      funext f k i
      rw [propext (hB f k i)]
      simp [hb, hxi']
    have e3 : (fun f k => (s'.fns f).store.sigs k) = fun f k => (s.fns f).store.sigs k := by
      funext f k
      by_cases e : f = x.fn
      · subst e; rw [hst]
      · rw [hother f e]
    rw [e1, e2, e3, hw]
    exact h
  case pos =>
  have h0 : ∀ (f : Nat) (k : Key), f ≠ x.fn → (s'.fns f).store.sigs k = (s.fns f).store.sigs k := by
    intro f k e
    rw [hother f e]
  -- off the cell nothing is pending before or after
  have hMoff : ∀ i0, (pc.mid = none ∨ pc.mid = some i0) → (x.act.pc.mid = none ∨ x.act.pc.mid = some i0) →
      ∀ f k j, ¬ (f = x.fn ∧ (s.fns x.fn).store.alike x.act.op.key k ∧ j = i0) → (s'.Mid f k j ↔ s.Mid f k j) := by
    intro i0 h1 h2 f k j hn
    rw [hM]
    by_cases e : f = x.fn
    · subst e
      rw [hMx hxi]
      constructor
      · rintro (⟨-, a, b⟩ | ⟨a, -⟩)
        · rcases h1 with h1 | h1 <;> rw [h1] at a <;> cases a
          exact absurd ⟨rfl, b, rfl⟩ hn
        · exact absurd ⟨rfl, hxi⟩ a
      · rintro ⟨a, b⟩
        rcases h2 with h2 | h2 <;> rw [h2] at a <;> cases a
        exact absurd ⟨rfl, b, rfl⟩ hn
    · constructor
      · rintro (⟨a, -⟩ | ⟨-, a⟩)
        · exact absurd a e
        · exact a
      · intro a
        exact .inr ⟨fun hc => e hc.1, a⟩
  have hBoff : pc.bld = none → ∀ f k j, s'.Bld f k j → s.Bld f k j := by
    intro hb f k j hc
    rw [hB, hb] at hc
    rcases hc with ⟨-, a, -⟩ | ⟨-, a⟩
    · cases a
    · exact a
  have hM1 : ∀ k i, (s.fns x.fn).store.alike x.act.op.key k → (s'.Mid x.fn k i ↔ pc.mid = some i) := by
    intro k i a
    rw [hM]
    simp [a, hxi]
  cases heff with
  | quiet h1 hl hf hm hb =>
    have e1 : s'.Mid = s.Mid := by
      funext f k i
      rw [propext (hM f k i), hm]
      apply propext
      by_cases e : f = x.fn
      · subst e; rw [hMx hxi]; simp [hxi]
      · simp [e]
    have e3 : (fun f k => (s'.fns f).store.sigs k) = fun f k => (s.fns f).store.sigs k := by
      funext f k
      by_cases e : f = x.fn
      · subst e; rw [h1]
      · rw [hother f e]
    rw [e1, e3, hl, hf]
    refine ⟨h.gid, h.past, h.uniq, h.count, ?_, h.ceil⟩
    intro f k i g t hi hb'
    rw [hB] at hb'
    rcases hb' with ⟨rfl, a, b⟩ | ⟨-, a⟩
    · rcases hb with hb | hb <;> rw [hb] at a
      · cases a
      · exact h.new _ k i g t hi ⟨id, x, hx, rfl, a, b⟩
    · exact h.new f k i g t hi a
  | counted i g t t' hi h1 hc hr hle hl hf hm hm' hb =>
    have hlk := set_lookup (A := fun f k k' => (s.fns f).store.alike k k')
      (S := fun f k => (s.fns f).store.sigs k) (S' := fun f k => (s'.fns f).store.sigs k) hAS hi h0
      (fun k a => (h1 k).trans (if_pos a)) (fun k a => (h1 k).trans (if_neg a))
    have hno : ¬ s.Mid x.fn x.act.op.key i := by rw [hMx hxi, hm]; simp
    have hcnt := h.count _ _ _ _ _ hi
    rw [one_false hno, Nat.add_zero] at hcnt
    rw [hl, hf, ← List.append_nil s.world.log]
    refine h.cell hA hAS hi hlk [] (by simp) (hMoff i (.inr hm') (.inl hm)) (hBoff hb) ?_ (fun _ _ _ => rfl) ?_
    · intro k a
      rw [one_true ((hM1 k i a).2 hm'), List.append_nil, hc, hcnt, atomicInc_wrap]
    · intro hlen k a
      rw [one_true ((hM1 k i a).2 hm'), List.append_nil, hr]
      right
      simp only [List.append_nil] at hlen
      have h2 := hits_le g s.world.log
      rw [Nat.mod_eq_of_lt (by omega)] at hcnt
      have h3 := hle (by omega)
      have h4 := passes_le_hits g s.world.log
      omega
  | refused i g t t' hi h1 hc hr hit hg hp hl hf hm hm' hb =>
    have hlk := set_lookup (A := fun f k k' => (s.fns f).store.alike k k')
      (S := fun f k => (s.fns f).store.sigs k) (S' := fun f k => (s'.fns f).store.sigs k) hAS hi h0
      (fun k a => (h1 k).trans (if_pos a)) (fun k a => (h1 k).trans (if_neg a))
    have hno : ¬ s.Mid x.fn x.act.op.key i := by rw [hMx hxi, hm]; simp
    have hcnt := h.count _ _ _ _ _ hi
    rw [one_false hno, Nat.add_zero] at hcnt
    rw [hl, hf]
    have hno' : ∀ k, (s.fns x.fn).store.alike x.act.op.key k → ¬ s'.Mid x.fn k i := by
      intro k a; rw [hM1 k i a, hm']; simp
    refine h.cell hA hAS hi hlk [hit] (by simpa using hg) (hMoff i (.inl hm') (.inl hm)) (hBoff hb) ?_ ?_ ?_
    · intro k a
      rw [one_false (hno' k a), hits_append, if_pos hg, hc, hcnt, atomicInc_wrap]
    · intro k a hbb
      have := hBoff hb _ _ _ hbb
      rw [hB] at hbb
      rcases hbb with ⟨-, q, -⟩ | ⟨q, -⟩
      · rw [hb] at q; cases q
      · exact absurd ⟨rfl, hxi⟩ q
    · intro hlen k a
      rw [one_false (hno' k a), passes_append, if_neg (by rw [hp]; simp), hr]
      have := h.ceil (by simp only [List.length_append] at hlen; omega) _ _ _ _ _ hi
      rw [one_false hno] at this
      exact this
  | logged i g t hi h1 hit hg hl hf hm hm' hb =>
    have hlk : ∀ (f : Nat) (k : Key) (j g' : Nat) (t' : Times), ((s'.fns f).store.sigs k)[j]? = some (g', t') →
        (f = x.fn ∧ (s.fns x.fn).store.alike x.act.op.key k ∧ j = i ∧ g' = g ∧ t' = t) ∨
        (((s.fns f).store.sigs k)[j]? = some (g', t') ∧
          ¬ (f = x.fn ∧ (s.fns x.fn).store.alike x.act.op.key k ∧ j = i)) := by
      intro f k j g' t' hj
      have hj' : ((s.fns f).store.sigs k)[j]? = some (g', t') := by
        by_cases e : f = x.fn
        · subst e; rw [h1] at hj; exact hj
        · rw [h0 f k e] at hj; exact hj
      by_cases hc : f = x.fn ∧ (s.fns x.fn).store.alike x.act.op.key k ∧ j = i
      · obtain ⟨rfl, a, rfl⟩ := hc
        rw [← hAS _ _ _ a, hi] at hj'
        cases hj'
        exact .inl ⟨rfl, a, rfl, rfl, rfl⟩
      · exact .inr ⟨hj', hc⟩
    have hyes : s.Mid x.fn x.act.op.key i := by rw [hMx hxi]; exact ⟨hm, Store.alike_refl _ _⟩
    have hcnt := h.count _ _ _ _ _ hi
    rw [one_true hyes] at hcnt
    rw [hl, hf]
    have hno' : ∀ k, (s.fns x.fn).store.alike x.act.op.key k → ¬ s'.Mid x.fn k i := by
      intro k a; rw [hM1 k i a, hm']; simp
    refine h.cell hA hAS hi hlk [hit] (by simpa using hg) (hMoff i (.inl hm') (.inr hm)) (hBoff hb) ?_ ?_ ?_
    · intro k a
      rw [one_false (hno' k a), hits_append, if_pos hg, hcnt]
    · intro k a hbb
      rw [hB] at hbb
      rcases hbb with ⟨-, q, -⟩ | ⟨q, -⟩
      · rw [hb] at q; cases q
      · exact absurd ⟨rfl, hxi⟩ q
    · intro hlen k a
      rw [one_false (hno' k a), passes_append]
      have := h.ceil (by simp only [List.length_append] at hlen; omega) _ _ _ _ _ hi
      rw [one_true hyes] at this
      right
      split <;> omega
  | absent i hi h1 hl hf hm hm' hb =>
    have e3 : (fun f k => (s'.fns f).store.sigs k) = fun f k => (s.fns f).store.sigs k := by
      funext f k
      by_cases e : f = x.fn
      · subst e; rw [h1]
      · rw [hother f e]
    rw [e3, hl, hf]
    have hoff : ∀ (f : Nat) (k : Key) (j g : Nat) (t : Times), ((s.fns f).store.sigs k)[j]? = some (g, t) →
        (s'.Mid f k j ↔ s.Mid f k j) := by
      intro f k j g t hj
      refine hMoff i (.inl hm') (.inr hm) f k j ?_
      rintro ⟨rfl, a, rfl⟩
      rw [← hAS _ _ _ a, hi] at hj
      cases hj
    refine ⟨h.gid, h.past, h.uniq, ?_, ?_, ?_⟩
    · intro f k j g t hj
      rw [one_congr (hoff f k j g t hj)]
      exact h.count f k j g t hj
    · intro f k j g t hj hbb
      exact h.new f k j g t hj (hBoff hb _ _ _ hbb)
    · intro hlen f k j g t hj
      rw [one_congr (hoff f k j g t hj)]
      exact h.ceil hlen f k j g t hj
  | added t ht h1 hl hf hm hm' hb =>
    rw [hl, hf]
    have hlk : ∀ (f : Nat) (k : Key) (j g' : Nat) (t' : Times), ((s'.fns f).store.sigs k)[j]? = some (g', t') →
        (f = x.fn ∧ (s.fns x.fn).store.alike x.act.op.key k ∧ j = ((s.fns x.fn).store.sigs x.act.op.key).length ∧
          g' = s.world.fresh ∧ t' = t) ∨
        ((s.fns f).store.sigs k)[j]? = some (g', t') := by
      intro f k j g' t' hj
      by_cases e : f = x.fn
      · subst e
        rw [h1] at hj
        split at hj
        · rename_i a
          rcases Nat.lt_or_ge j ((s.fns x.fn).store.sigs x.act.op.key).length with hlt | hge
          · rw [List.getElem?_append_left hlt, hAS _ _ _ a] at hj
            exact .inr hj
          · rw [List.getElem?_append_right hge] at hj
            have := (List.getElem?_eq_some_iff.1 hj).1
            simp only [List.length_singleton] at this
            have hz : j - ((s.fns x.fn).store.sigs x.act.op.key).length = 0 := by omega
            rw [hz] at hj
            cases hj
            exact .inl ⟨rfl, a, by omega, rfl, rfl⟩
        · exact .inr hj
      · rw [h0 f k e] at hj
        exact .inr hj
    have hM0 : ∀ f k j, s'.Mid f k j ↔ s.Mid f k j := by
      intro f k j
      rw [hM]
      by_cases e : f = x.fn
      · subst e; rw [hMx hxi]; simp [hm, hm', hxi]
      · simp [e]
    have hz : hits s.world.fresh s.world.log = 0 := hits_fresh h.past
    have hnoM : ∀ k j, ¬ s'.Mid x.fn k j := by
      intro k j; rw [hM0, hMx hxi, hm]; simp
    refine ⟨?_, ?_, ?_, ?_, ?_, ?_⟩
    · intro f k j g' t' hj
      rcases hlk f k j g' t' hj with ⟨-, -, -, rfl, -⟩ | hj
      · exact Nat.lt_succ_self _
      · exact Nat.lt_succ_of_lt (h.gid _ _ _ _ _ hj)
    · intro y hy
      exact Nat.lt_succ_of_lt (h.past y hy)
    · intro f k j g' t' f' k' j' t'' hj hj'
      rcases hlk f k j g' t' hj with ⟨rfl, a, rfl, rfl, -⟩ | hj
      · rcases hlk f' k' j' _ t'' hj' with ⟨rfl, a', rfl, -, -⟩ | hj'
        · exact ⟨rfl, rfl, hA _ _ _ _ a a'⟩
        · exact absurd (h.gid _ _ _ _ _ hj') (Nat.lt_irrefl _)
      · rcases hlk f' k' j' _ t'' hj' with ⟨rfl, a', rfl, rfl, -⟩ | hj'
        · exact absurd (h.gid _ _ _ _ _ hj) (Nat.lt_irrefl _)
        · exact h.uniq _ _ _ _ _ _ _ _ _ hj hj'
    · intro f k j g' t' hj
      rcases hlk f k j g' t' hj with ⟨rfl, a, rfl, rfl, rfl⟩ | hj
      · rw [hz, one_false (hnoM k _), ht]
        rfl
      · rw [one_congr (hM0 f k j)]
        exact h.count _ _ _ _ _ hj
    · intro f k j g' t' hj hbb
      rcases hlk f k j g' t' hj with ⟨rfl, a, rfl, rfl, rfl⟩ | hj
      · exact hz
      · rw [hB] at hbb
        rcases hbb with ⟨rfl, b, c⟩ | ⟨-, b⟩
        · rw [hb] at b
          cases b
          rw [← hAS _ _ _ c] at hj
          have := (List.getElem?_eq_some_iff.1 hj).1
          exact absurd this (Nat.lt_irrefl _)
        · exact h.new _ _ _ _ _ hj b
    · intro hlen f k j g' t' hj
      rcases hlk f k j g' t' hj with ⟨rfl, a, rfl, rfl, rfl⟩ | hj
      · left
        rw [one_false (hnoM k _)]
        have := passes_le_hits s.world.fresh s.world.log
        omega
      · rw [one_congr (hM0 f k j)]
        exact h.ceil hlen _ _ _ _ _ hj
  | built i g t t' hi h1 hc hl hf hm hm' hb hb' =>
    have hlk := set_lookup (A := fun f k k' => (s.fns f).store.alike k k')
      (S := fun f k => (s.fns f).store.sigs k) (S' := fun f k => (s'.fns f).store.sigs k) hAS hi h0
      (fun k a => (h1 k).trans (if_pos a)) (fun k a => (h1 k).trans (if_neg a))
    have hno : ¬ s.Mid x.fn x.act.op.key i := by rw [hMx hxi, hm]; simp
    have hcnt := h.count _ _ _ _ _ hi
    rw [one_false hno, Nat.add_zero] at hcnt
    rw [hl, hf, ← List.append_nil s.world.log]
    have hno' : ∀ k, (s.fns x.fn).store.alike x.act.op.key k → ¬ s'.Mid x.fn k i := by
      intro k a; rw [hM1 k i a, hm']; simp
    refine h.cell hA hAS hi hlk [] (by simp) (hMoff i (.inl hm') (.inl hm)) ?_ ?_ (fun _ _ _ => rfl) ?_
    · intro f k j hbb
      rw [hB] at hbb
      rcases hbb with ⟨rfl, b, c⟩ | ⟨-, b⟩
      · rcases hb' with hb' | hb' <;> rw [hb'] at b <;> cases b
        exact ⟨id, x, hx, rfl, hb, c⟩
      · exact b
    · intro k a
      rw [one_false (hno' k a), List.append_nil, Nat.add_zero]
      exact hc.trans hcnt
    · intro hlen k a
      rw [one_false (hno' k a), List.append_nil]
      left
      have h2 := h.new _ _ _ _ _ hi ⟨id, x, hx, rfl, hb, Store.alike_refl _ _⟩
      have := passes_le_hits g s.world.log
      omega
  | drained h1 hl hf hm hm' hb =>
    rw [hl, hf]
    have hlk : ∀ (f : Nat) (k : Key) (j g' : Nat) (t' : Times), ((s'.fns f).store.sigs k)[j]? = some (g', t') →
        ((s.fns f).store.sigs k)[j]? = some (g', t') := by
      intro f k j g' t' hj
      by_cases e : f = x.fn
      · subst e
        rw [h1] at hj
        simp at hj
      · rw [h0 f k e] at hj
        exact hj
    have hM0 : ∀ f k j, s'.Mid f k j ↔ s.Mid f k j := by
      intro f k j
      rw [hM]
      by_cases e : f = x.fn
      · subst e; rw [hMx hxi]; simp [hm, hm', hxi]
      · simp [e]
    refine ⟨?_, h.past, ?_, ?_, ?_, ?_⟩
    · intro f k j g' t' hj
      exact h.gid _ _ _ _ _ (hlk f k j g' t' hj)
    · intro f k j g' t' f' k' j' t'' hj hj'
      exact h.uniq _ _ _ _ _ _ _ _ _ (hlk _ _ _ _ _ hj) (hlk _ _ _ _ _ hj')
    · intro f k j g' t' hj
      rw [one_congr (hM0 f k j)]
      exact h.count _ _ _ _ _ (hlk _ _ _ _ _ hj)
    · intro f k j g' t' hj hbb
      exact h.new _ _ _ _ _ (hlk _ _ _ _ _ hj) (hBoff hb _ _ _ hbb)
    · intro hlen f k j g' t' hj
      rw [one_congr (hM0 f k j)]
      exact h.ceil hlen _ _ _ _ _ (hlk _ _ _ _ _ hj)

theorem TState.Balanced.start {env : Env V} {s : TState V} (h : s.Balanced) (tid f : Nat) (op : SOp V) :
    (s.step env (.start tid f op)).Balanced := by
  simp only [TState.step]
  split
  case isFalse => exact h
  have hst : op.start.mid = none ∧ op.start.bld = none := by cases op <;> exact ⟨rfl, rfl⟩
  have hold : ∀ (id : Nat) (x : TAct V), (s.acts ++ [⟨f, ⟨tid, op, op.start⟩⟩])[id]? = some x →
      s.acts[id]? = some x ∨ x = ⟨f, ⟨tid, op, op.start⟩⟩ := by
    intro id x hx
    have := List.mem_of_getElem? hx
    rcases Nat.lt_or_ge id s.acts.length with hl | hl
    · rw [List.getElem?_append_left hl] at hx
      exact .inl hx
    · rw [List.getElem?_append_right hl] at hx
      have := List.mem_of_getElem? hx
      simp only [List.mem_singleton] at this
      exact .inr this
  have e1 : (TState.mk s.fns s.held s.world (s.acts ++ [⟨f, ⟨tid, op, op.start⟩⟩])).Mid = s.Mid := by
    funext g k i
    apply propext
    constructor
    · rintro ⟨id, x, hx, e, hm, hk⟩
      rcases hold id x hx with hx | rfl
      · exact ⟨id, x, hx, e, hm, hk⟩
      · simp [hst.1] at hm
    · rintro ⟨id, x, hx, e, hm, hk⟩
      refine ⟨id, x, ?_, e, hm, hk⟩
      simp only
      rw [List.getElem?_append_left (List.getElem?_eq_some_iff.1 hx).1]
      exact hx
  have e2 : (TState.mk s.fns s.held s.world (s.acts ++ [⟨f, ⟨tid, op, op.start⟩⟩])).Bld = s.Bld := by
    funext g k i
    apply propext
    constructor
    · rintro ⟨id, x, hx, e, hm, hk⟩
      rcases hold id x hx with hx | rfl
      · exact ⟨id, x, hx, e, hm, hk⟩
      · simp [hst.2] at hm
    · rintro ⟨id, x, hx, e, hm, hk⟩
      refine ⟨id, x, ?_, e, hm, hk⟩
      simp only
      rw [List.getElem?_append_left (List.getElem?_eq_some_iff.1 hx).1]
      exact hx
  unfold TState.Balanced
  rw [e1, e2]
  exact h

theorem TState.Balanced.step {env : Env V} {s : TState V} (hinv : TInv s) (h : s.Balanced) (id : Nat)
    (ans : Answer V) : (s.step env (.step id ans)).Balanced := by
  simp only [TState.step]
  split
  · exact h
  rename_i x hx
  split
  case isFalse => exact h
  cases hs : s.stepAct env id x ans with
  | none => exact h
  | some s' => exact h.stepAct hinv hx hs

theorem TState.Balanced.run {env : Env V} : ∀ (sch : List (TSched V)) {s : TState V}, TInv s → s.Balanced →
    (s.run env sch).Balanced
  | [], _, _, h => h
  | .start tid f op :: sch, _, hi, h => TState.Balanced.run sch (hi.start tid f op) (h.start tid f op)
  | .step id ans :: sch, _, hi, h => TState.Balanced.run sch (hi.step id ans) (h.step hi id ans)

theorem TState.Balanced.rest (fns : Nat → StaticFn V) (w : World V) (hf : ∀ f k, (fns f).store.vec k = [])
    (hl : w.log = []) : (TState.rest fns w).Balanced := by
  have hno : ∀ (f : Nat) (k : Key) (i g : Nat) (t : Times), ((fns f).store.sigs k)[i]? ≠ some (g, t) := by
    intro f k i g t
    simp [Store.sigs, hf]
  refine ⟨?_, ?_, ?_, ?_, ?_, ?_⟩
  · intro f k i g t h; exact absurd h (hno f k i g t)
  · intro h hh; simp [TState.rest, hl] at hh
  · intro f k i g t f' k' i' t' h; exact absurd h (hno f k i g t)
  · intro f k i g t h; exact absurd h (hno f k i g t)
  · intro f k i g t h; exact absurd h (hno f k i g t)
  · intro hlen f k i g t h; exact absurd h (hno f k i g t)

/-- **C78**.  While nobody uses a method, each of its expectations has counted the calls dispatched to it: those
recorded under its number, whoever made them and from wherever. -/
theorem C78_count (env : Env V) (fns : Nat → StaticFn V) (w : World V) (hf : ∀ f k, (fns f).store.vec k = [])
    (hl : w.log = []) (sch : List (TSched V)) (f : Nat) (k : Key) (e : Expectation V)
    (he : e ∈ (((TState.rest fns w).run env sch).fns f).store.vec k)
    (idle : ((TState.rest fns w).run env sch).held f = none) :
    e.common.times.count = hits e.gid ((TState.rest fns w).run env sch).world.log % (usizeMax + 1) := by
  have hb := TState.Balanced.run (env := env) sch (TInv.rest fns w) (.rest fns w hf hl)
  have hi := TInv.run (env := env) sch (TInv.rest fns w)
  obtain ⟨i, hi'⟩ := List.mem_iff_getElem?.1 he
  have hc := hb.count f k i e.gid e.common.times (by simp [Store.sigs, hi'])
  rw [one_false, Nat.add_zero] at hc
  · exact hc
  · rintro ⟨id, x, hx, rfl, hm, -⟩
    have := hi.holds id x hx (SPc.mid_inside hm)
    rw [idle] at this
    cases this

/-- **C78**.  At every moment the calls that an expectation has let through are at most as many as its window
allows. -/
theorem C78_ceiling (env : Env V) (fns : Nat → StaticFn V) (w : World V) (hf : ∀ f k, (fns f).store.vec k = [])
    (hl : w.log = []) (sch : List (TSched V)) (f : Nat) (k : Key) (e : Expectation V)
    (he : e ∈ (((TState.rest fns w).run env sch).fns f).store.vec k)
    (hlen : ((TState.rest fns w).run env sch).world.log.length < usizeMax) :
    passes e.gid ((TState.rest fns w).run env sch).world.log ≤ e.common.times.range.end_ - 1 := by
  have hb := TState.Balanced.run (env := env) sch (TInv.rest fns w) (.rest fns w hf hl)
  obtain ⟨i, hi'⟩ := List.mem_iff_getElem?.1 he
  have hc := hb.ceil hlen f k i e.gid e.common.times (by simp [Store.sigs, hi'])
  omega

/-! ## Examples -/

namespace StaticNestedExamples

open Props

/-- All static methods are alike and have no expectations. -/
def alikeFns : Nat → StaticFn Nat := fun _ => StaticFn.new fooInfo

/-- The world at the start. -/
def startWorld : World Nat := (Sys.init [fooInfo]).world

example : (∀ f k, (alikeFns f).store.vec k = []) ∧ startWorld.log = [] := ⟨fun _ _ => rfl, rfl⟩

/-- User code says yes, or yields 5. -/
def five : Answer Nat := ⟨.ok true, .ok 5⟩

/-- Operation `id` makes `n` steps. -/
def goes (id n : Nat) : List (TSched Nat) := List.replicate n (.step id five)

/-- A closure that could return anything. -/
def anyClosure : Build Nat := .returning { run := fun _ _ => .ok 0 }

/-- Thread 1 lets method 0 run a closure and method 1 return 7 (operations 0 and 1), then calls method 0 (operation
2), which enters the closure. -/
def inClosure : List (TSched Nat) :=
  .start 1 0 (.expect 0 [anyClosure]) :: goes 0 5 ++ .start 1 1 (.expect 0 [.returnConst 7]) :: goes 1 5 ++
    .start 1 0 (.call 0 [3]) :: goes 2 7

/-- The operations, in short: method, thread, is it over, is it in user code. -/
def brief (s : TState Nat) : List (Nat × Nat × Bool × Bool) :=
  s.acts.map fun x => (x.fn, x.act.tid, x.finished, x.user s)

/-- What the operations reported. -/
def reports (s : TState Nat) : List (Option (Obs Nat)) :=
  s.acts.map fun x => match x.act.pc with | .done o => some o | _ => none

/-- The state after a schedule. -/
def nested (sch : List (TSched Nat)) : TState Nat := (TState.rest alikeFns startWorld).run fooEnv sch

theorem nested_reached (sch : List (TSched Nat)) : Reached fooEnv (nested sch) := ⟨_, _, _, rfl⟩

/-- The closure calls method 1, which works: operation 3 is over, and then operation 2. -/
example : brief (nested (inClosure ++ [.start 1 1 (.call 0 [4])])) =
      [(0, 1, true, false), (1, 1, true, false), (0, 1, false, true), (1, 1, false, false)] ∧
    reports (nested (inClosure ++ .start 1 1 (.call 0 [4]) :: goes 3 10 ++ goes 2 3)) =
      [some (.unit (.ok ()) false), some (.unit (.ok ()) false), some (.value (.ok 5)), some (.value (.ok 5))] :=
  ⟨rfl, rfl⟩

/-- C78_progress, C78_completes: this is a state in which user code has gone down. -/
example : Descends (fun f => 1 - f) (nested (inClosure ++ [.start 1 1 (.call 0 [4])])) ∧
    Pending (nested (inClosure ++ [.start 1 1 (.call 0 [4])])) 2 := by
  refine ⟨?_, _, rfl, rfl⟩
  intro i j x y hij hx hy ht fx fy
  match i, j, hij, hx, hy with
  | 0, _, _, hx, _ => cases hx; cases fx
  | 1, _, _, hx, _ => cases hx; cases fx
  | 2, 3, _, hx, hy => cases hx; cases hy; exact Nat.zero_lt_one
  | 2, _ + 4, _, hx, hy => cases hy
  | 3, _ + 4, _, hx, hy => cases hy
  | _ + 4, _, _, hx, _ => cases hx

/-- C78_self: the closure of method 0 calls method 0. -/
example : ∃ x y : TAct Nat, (nested (inClosure ++ [.start 1 0 (.call 0 [4])])).acts[2]? = some x ∧
    (nested (inClosure ++ [.start 1 0 (.call 0 [4])])).acts[3]? = some y ∧ x.act.tid = y.act.tid ∧
    x.finished = false ∧ y.finished = false ∧ x.fn = y.fn := ⟨_, _, rfl, rfl, rfl, rfl, rfl, rfl⟩

/-- C78_self: a method is called in an argument of a builder call on its own expectation, as in
`ctx.expect().return_const(foo(4))`. -/
example : ∃ x y : TAct Nat,
    let s := nested (.start 1 0 (.expect 0 [.returnConst 7]) :: goes 0 2 ++ [.start 1 0 (.call 0 [4])])
    s.acts[0]? = some x ∧ s.acts[1]? = some y ∧ x.act.tid = y.act.tid ∧
    x.finished = false ∧ y.finished = false ∧ x.fn = y.fn := ⟨_, _, rfl, rfl, rfl, rfl, rfl, rfl⟩

/-- C78_builder: the same statement, `foo(4)` not begun yet. -/
example (op : SOp Nat) (sch : List (TSched Nat)) :
    let s := nested (.start 1 0 (.expect 0 [.returnConst 7]) :: goes 0 2)
    Pending ((s.step fooEnv (.start 1 0 op)).run fooEnv sch) 0 ∧
    Pending ((s.step fooEnv (.start 1 0 op)).run fooEnv sch) 1 :=
  C78_builder fooEnv (nested (.start 1 0 (.expect 0 [.returnConst 7]) :: goes 0 2)) (nested_reached _) 0 0 [.returnConst 7] _ rfl rfl
    (fun j y hj hy => by match j, hj, hy with | _ + 1, _, hy => cases hy) op sch

/-- Thread 1 is in the closure of method 0, thread 2 in that of method 1, and each calls the other method. -/
def crossed : List (TSched Nat) :=
  .start 1 0 (.expect 0 [anyClosure]) :: goes 0 5 ++ .start 1 1 (.expect 0 [anyClosure]) :: goes 1 5 ++
    .start 1 0 (.call 0 [3]) :: goes 2 7 ++ .start 2 1 (.call 0 [3]) :: goes 3 7 ++
    [.start 1 1 (.call 0 [4]), .start 2 0 (.call 0 [4])]

/-- C78_cycle, C78_deadlock: operations 2 to 5 are never over. -/
example (sch : List (TSched Nat)) : ∀ n ∈ [2, 4, 3, 5], Pending ((nested crossed).run fooEnv sch) n :=
  C78_cycle fooEnv (nested crossed) (nested_reached _) 2 4 3 5 _ _ _ _ rfl rfl (by decide) rfl rfl rfl (by decide) rfl
    rfl rfl (.inr (.inl rfl)) (.inr (.inl rfl)) rfl rfl sch

/-- C78_exclusive: operation 2 is inside. -/
example : ∃ x : TAct Nat, (nested crossed).acts[2]? = some x ∧ x.act.pc.inside = true := ⟨_, rfl, rfl⟩

/-- C78_count, C78_ceiling: after the two calls there are expectations that were called. -/
example : let s := nested (inClosure ++ .start 1 1 (.call 0 [4]) :: goes 3 10 ++ goes 2 3)
    s.held 0 = none ∧ s.held 1 = none ∧ s.world.log.map (·.gid) = [0, 1] ∧
    ((s.fns 0).store.vec 0).map (fun e => (e.gid, e.common.times.count)) = [(0, 1)] := ⟨rfl, rfl, rfl, rfl⟩

end StaticNestedExamples

end Mockall
