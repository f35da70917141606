import Verif.Conc.StaticMany
import Verif.Props.ConcStatic
import Verif.Lemmas.LinearCall
import Verif.Lemmas.Ret
import Verif.Lemmas.Seq
import Verif.Lemmas.SeqSpec
import Verif.Spec.StaticMany

/-! # Lemmas about any number of static methods that share sequences -/

namespace Mockall

variable {V : Type}

/-- The sequences are at the same place, with the same number of expectations and record of calls.  How many
expectations have joined a sequence may differ. -/
structure World.Alike (w u : World V) : Prop where
  level : ∀ sid, (w.seqs sid).level = (u.seqs sid).level
  fresh : w.fresh = u.fresh
  log : w.log = u.log

/-- How many expectations have joined a sequence. -/
def World.joined (w : World V) (sid : Nat) : Nat := (w.seqs sid).next

theorem World.Alike.refl (w : World V) : w.Alike w := ⟨fun _ => rfl, rfl, rfl⟩

theorem World.Alike.trans {a b c : World V} (h : a.Alike b) (h' : b.Alike c) : a.Alike c :=
  ⟨fun sid => (h.level sid).trans (h'.level sid), h.fresh.trans h'.fresh, h.log.trans h'.log⟩

theorem World.Alike.symm {a b : World V} (h : a.Alike b) : b.Alike a :=
  ⟨fun sid => (h.level sid).symm, h.fresh.symm, h.log.symm⟩

theorem ret_call_alike (cx : Cx V) (info : FnInfo V) (args : List V) (e : Expectation V) (w : World V) :
    (e.ret_call cx info args w).2.2.Alike w ∧ (e.ret_call cx info args w).2.2.seqs = w.seqs := by
  simp only [Expectation.ret_call]
  repeat' split
  all_goals exact ⟨⟨fun _ => rfl, rfl, rfl⟩, rfl⟩

theorem build_seqs (b : Build V) (e : Expectation V) (q q' : Seqs) :
    (e.build b q).1 = (e.build b q').1 ∧
    ((∀ sid, b = .inSequence sid → (q sid).next = (q' sid).next) → (e.build b q).2.1 = (e.build b q').2.1) ∧
    (∀ sid, ((e.build b q).2.2 sid).level = (q sid).level) ∧
    (∀ sid, b ≠ .inSequence sid → (e.build b q).2.2 sid = q sid) ∧
    (∀ sid, (q sid).next = (q' sid).next → ((e.build b q).2.2 sid).next = ((e.build b q').2.2 sid).next) ∧
    ((e.build b q).2.1.common.seqHandle = e.common.seqHandle ∨ ∃ sid, b = .inSequence sid ∧
      (e.build b q).2.1.common.seqHandle = some ⟨sid, (q sid).next⟩ ∧
      ((e.build b q).2.2 sid).next = (q sid).next + 1) ∧
    ∀ sid, (q sid).next ≤ ((e.build b q).2.2 sid).next := by
  cases b <;> simp only [Expectation.build]
  case inSequence sid =>
    simp only [Common.inSequence]
    split
    · refine ⟨rfl, fun h => ?_, fun t => ?_, fun t ht => ?_, fun t ht => ?_, .inr ⟨sid, rfl, rfl, ?_⟩, fun t => ?_⟩
      · simp [Seqs.nextHandle, h sid rfl]
      · simp only [Seqs.nextHandle, Seqs.set]
        split
        · rename_i h; rw [h]
        · rfl
      · simp only [Seqs.nextHandle, Seqs.set]
        rw [if_neg (fun h => ht (by rw [h]))]
      · simp only [Seqs.nextHandle, Seqs.set]
        split
        · rename_i h; subst h; simp [ht]
        · exact ht
      · simp [Seqs.nextHandle, Seqs.set]
      · simp only [Seqs.nextHandle, Seqs.set]
        split
        · rename_i h; subst h; simp
        · exact Nat.le_refl _
    · exact ⟨rfl, fun _ => rfl, fun _ => rfl, fun _ _ => rfl, fun _ h => h, .inl rfl, fun _ => Nat.le_refl _⟩
  all_goals try simp only [Expectation.setMatcher, Expectation.setStatic]
  all_goals repeat' split
  all_goals first
    | exact ⟨rfl, fun _ => rfl, fun _ => rfl, fun _ _ => rfl, fun _ h => h, .inl (by simp_all), fun _ => Nat.le_refl _⟩
    | simp_all

theorem builds_seqs (bs : List (Build V)) (e e' : Expectation V) (q q' : Seqs) (he : e = e')
    (hq : ∀ sid, .inSequence sid ∈ bs → (q sid).next = (q' sid).next) :
    (Expectation.builds bs e q).1 = (Expectation.builds bs e' q').1 ∧
    (Expectation.builds bs e q).2.1 = (Expectation.builds bs e' q').2.1 ∧
    (∀ sid, ((Expectation.builds bs e q).2.2 sid).level = (q sid).level) ∧
    (∀ sid, .inSequence sid ∉ bs → (Expectation.builds bs e q).2.2 sid = q sid) ∧
    (∀ sid, (q sid).next = (q' sid).next →
      ((Expectation.builds bs e q).2.2 sid).next = ((Expectation.builds bs e' q').2.2 sid).next) := by
  subst he
  induction bs generalizing e q q' with
  | nil => exact ⟨rfl, rfl, fun _ => rfl, fun _ _ => rfl, fun _ h => h⟩
  | cons b bs ih =>
    have h1 := build_seqs b e q q'
    rcases hq1 : e.build b q with ⟨r, e1, q1⟩
    rcases hq1' : e.build b q' with ⟨r', e1', q1'⟩
    rw [hq1, hq1'] at h1
    obtain ⟨hr, he, hl, hk, hn, _, _⟩ := h1
    simp only at hr he hl hk hn
    subst hr
    have he := he fun sid e => hq sid (by simp [e])
    subst he
    simp only [Expectation.builds, hq1, hq1']
    cases r with
    | error p =>
      exact ⟨rfl, rfl, hl, fun sid hs => hk sid fun e => hs (by simp [e]), hn⟩
    | ok u =>
      have ih := ih { e1 with chain := e.chain ++ [b] } q1 q1' fun sid hs => hn sid (hq sid (by simp [hs]))
      refine ⟨ih.1, ih.2.1, fun sid => ?_, fun sid hs => ?_, fun sid hs => ih.2.2.2.2 sid (hn sid hs)⟩
      · rw [ih.2.2.1 sid, hl]
      · rw [ih.2.2.2.1 sid (fun h => hs (by simp [h])), hk sid fun e => hs (by simp [e])]

/-- The operation still has to join the sequence: it is an `expect` with `in_sequence` to come. -/
def SAct.Joins (act : SAct V) (sid : Nat) : Prop := ∃ i bs, act.pc = .build i bs ∧ .inSequence sid ∈ bs

theorem not_joins {act : SAct V} (h : ∀ i bs, act.pc ≠ .build i bs) (sid : Nat) : ¬ act.Joins sid :=
  fun ⟨i, bs, e, _⟩ => h i bs e

/-- Some expectation of the method has this place in a sequence. -/
def StaticFn.Handles (sf : StaticFn V) (h : SeqHandle) : Prop :=
  ∃ k, ∃ e ∈ sf.store.vec k, e.common.seqHandle = some h

theorem Store.mem_setVec {s : Store V} {k k' : Key} {es : List (Expectation V)} {e : Expectation V}
    (h : e ∈ (s.setVec k es).vec k') : e ∈ es ∨ e ∈ s.vec k' := by
  cases s with
  | concrete es' => exact .inl h
  | generic m =>
    simp only [Store.setVec] at h
    split at h
    · exact .inr h
    · simp only [Store.vec] at h ⊢
      by_cases hk : k' = k
      · subst hk
        rw [GMap.get_put_same] at h
        exact .inl h
      · rw [GMap.get_put_other _ (Ne.symm hk)] at h
        exact .inr h

theorem Store.mem_push {s : Store V} {k k' : Key} {e' e : Expectation V} (h : e ∈ (s.push k e').vec k') :
    e = e' ∨ e ∈ s.vec k' := by
  cases s with
  | concrete es' =>
    simp only [Store.push, Store.vec, List.mem_append, List.mem_singleton] at h
    exact h.symm
  | generic m =>
    simp only [Store.push, Store.vec] at h ⊢
    by_cases hk : k' = k
    · subst hk
      rw [GMap.get_put_same] at h
      simp only [Option.getD_some, List.mem_append, List.mem_singleton] at h
      exact h.symm
    · rw [GMap.get_put_other _ (Ne.symm hk)] at h
      exact .inr h

theorem StaticFn.Handles.put {sf : StaticFn V} {k : Key} {i : Nat} {e e' : Expectation V} {h : SeqHandle}
    (he : (sf.store.vec k)[i]? = some e) (hs : e'.common.seqHandle = e.common.seqHandle)
    (hh : StaticFn.Handles { sf with store := sf.store.setVec k ((sf.store.vec k).set i e') } h) : sf.Handles h := by
  obtain ⟨k', x, hx, hxs⟩ := hh
  rcases Store.mem_setVec hx with hx | hx
  · rcases List.mem_or_eq_of_mem_set hx with hx | rfl
    · exact ⟨k, x, hx, hxs⟩
    · exact ⟨k, e, List.mem_of_getElem? he, by rw [← hs]; exact hxs⟩
  · exact ⟨k', x, hx, hxs⟩

theorem ret_call_handle (cx : Cx V) (info : FnInfo V) (args : List V) (e : Expectation V) (w : World V) :
    (e.ret_call cx info args w).2.1.common.seqHandle = e.common.seqHandle := by
  simp only [Expectation.ret_call]
  repeat' split
  all_goals rfl

theorem matches_handle (e : Expectation V) (tid : Nat) (args : List V) :
    (e.matches tid args).2.common.seqHandle = e.common.seqHandle := by
  simp only [Expectation.matches, Common.matches]
  repeat' split
  all_goals rfl

theorem SAct.inner_handles (env : Env V) (act : SAct V) (sf : StaticFn V) (w : World V)
    (h : SeqHandle) (hh : (act.inner env sf w).2.1.Handles h) :
    sf.Handles h ∨ (h.seq = w.joined h.sid ∧ (act.inner env sf w).2.2.joined h.sid = h.seq + 1) := by
  obtain ⟨tid, op, pc⟩ := act
  cases pc with
  | push =>
    obtain ⟨k', x, hx, hxs⟩ := hh
    rcases Store.mem_push hx with rfl | hx
    · simp [Expectation.new, Common.dflt] at hxs
    · exact .inl ⟨k', x, hx, hxs⟩
  | drain =>
    obtain ⟨k', x, hx, hxs⟩ := hh
    simp only [SAct.inner] at hx
    cases hst : sf.store with
    | concrete es => rw [hst] at hx; simp [Store.drained, Store.vec] at hx
    | generic m => rw [hst] at hx; simp [Store.drained, Store.vec, GMap.get] at hx
  | build i bs =>
    simp only [SAct.inner] at hh ⊢
    rcases he : (sf.store.vec op.key)[i]? with _ | e
    · left; simpa [he] using hh
    · cases bs with
      | nil => left; simpa [he] using hh
      | cons b bs =>
        have hbb := (build_seqs b e w.seqs w.seqs).2.2.2.2.2.1
        simp only [he] at hh ⊢
        have key : ∀ e' : Expectation V, e'.common.seqHandle = (e.build b w.seqs).2.1.common.seqHandle →
            StaticFn.Handles { sf with store := sf.store.setVec op.key ((sf.store.vec op.key).set i e') } h →
            sf.Handles h ∨ (h.seq = (w.seqs h.sid).next ∧ ((e.build b w.seqs).2.2 h.sid).next = h.seq + 1) := by
          intro e' hs' hx
          rcases hbb with hbb | ⟨sid, -, h2, h3⟩
          · exact .inl (StaticFn.Handles.put he (hs'.trans hbb) hx)
          · obtain ⟨k', x, hx, hxs⟩ := hx
            rcases Store.mem_setVec hx with hx | hx
            · rcases List.mem_or_eq_of_mem_set hx with hx | rfl
              · exact .inl ⟨op.key, x, hx, hxs⟩
              · rw [hs', h2] at hxs
                cases hxs
                exact .inr ⟨rfl, h3⟩
            · exact .inl ⟨k', x, hx, hxs⟩
        split at hh
        · exact key _ rfl hh
        · exact key { (e.build b w.seqs).2.1 with chain := e.chain ++ [b] } rfl hh
  | scan i =>
    left
    simp only [SAct.inner] at hh
    rcases he : (sf.store.vec op.key)[i]? with _ | e
    · simpa [he] using hh
    · simp only [he] at hh
      exact StaticFn.Handles.put he (matches_handle e _ _) hh
  | inc i =>
    left
    simp only [SAct.inner] at hh
    rcases he : (sf.store.vec op.key)[i]? with _ | e
    · simpa [he] using hh
    · simp only [he] at hh
      have hp : ∀ x : StaticFn V, x = { sf with store := sf.store.setVec op.key ((sf.store.vec op.key).set i
          { e with common := { e.common with times := e.common.times.call.2 } }) } → x.Handles h → sf.Handles h := by
        intro x hx hxh
        subst hx
        exact StaticFn.Handles.put (e' := { e with common := { e.common with times := e.common.times.call.2 } }) he rfl hxh
      split at hh
      all_goals exact hp _ rfl hh
  | ret i =>
    left
    simp only [SAct.inner] at hh
    rcases he : (sf.store.vec op.key)[i]? with _ | e
    · simpa [he] using hh
    · simp only [he] at hh
      exact StaticFn.Handles.put he (ret_call_handle _ _ _ e _) hh
  | _ =>
    left
    simp only [SAct.inner] at hh
    repeat' split at hh
    all_goals exact hh

theorem satisfy_joined (c : Common V) (q : Seqs) (sid : Nat) : ((c.satisfySequence q).2 sid).next = (q sid).next := by
  unfold Common.satisfySequence
  split
  · rename_i h _
    simp only [Seqs.satisfy]
    split <;> (simp only [Seqs.set]; split)
    all_goals first | rfl | (rename_i e; rw [e])
  · rfl

/-- One step adds to a sequence only if the operation had to join it. -/
theorem SAct.inner_joined (env : Env V) (act : SAct V) (sf : StaticFn V) (w : World V) (sid : Nat) :
    w.joined sid ≤ (act.inner env sf w).2.2.joined sid ∧
    (¬ act.Joins sid → (act.inner env sf w).2.2.joined sid = w.joined sid) := by
  have hsame : (act.inner env sf w).2.2.joined sid = w.joined sid → w.joined sid ≤ (act.inner env sf w).2.2.joined sid ∧
      (¬ act.Joins sid → (act.inner env sf w).2.2.joined sid = w.joined sid) :=
    fun h => ⟨Nat.le_of_eq h.symm, fun _ => h⟩
  obtain ⟨tid, op, pc⟩ := act
  cases pc with
  | satisfy i =>
    refine hsame ?_
    simp only [SAct.inner]
    split
    · rfl
    · rename_i e _
      split
      · exact satisfy_joined e.common w.seqs sid
      · exact satisfy_joined e.common w.seqs sid
  | ret i =>
    refine hsame ?_
    simp only [SAct.inner]
    split
    · rfl
    · simp only [World.joined, (ret_call_alike _ _ _ _ _).2]
  | build i bs =>
    simp only [SAct.inner]
    split
    · exact ⟨Nat.le_refl _, fun _ => rfl⟩
    · exact ⟨Nat.le_refl _, fun _ => rfl⟩
    · rename_i e b bs _
      have hbb := build_seqs b e w.seqs w.seqs
      have h2 : ¬ SAct.Joins ⟨tid, op, .build i (b :: bs)⟩ sid → ((e.build b w.seqs).2.2 sid).next = (w.seqs sid).next := by
        intro hj
        rw [hbb.2.2.2.1 sid fun e => hj ⟨i, _, rfl, by simp [e]⟩]
      split
      · exact ⟨hbb.2.2.2.2.2.2 sid, h2⟩
      · exact ⟨hbb.2.2.2.2.2.2 sid, h2⟩
  | _ =>
    refine hsame ?_
    simp only [SAct.inner]
    repeat' split
    all_goals rfl

/-- The operation has taken effect: a call once its expectation was chosen and the sequence was dealt with, `expect`
once the expectation is there, the others once the expectations are collected. -/
def SPc.took : SPc V → Bool
  | .clear | .wait | .tryWait | .scan _ | .check _ | .inc _ | .verify _ | .sat _ | .satisfy _ | .push | .drain => false
  | _ => true

theorem satisfy_alike (c : Common V) {q q' : Seqs} (h : ∀ sid, (q sid).level = (q' sid).level) :
    (c.satisfySequence q).1 = (c.satisfySequence q').1 ∧
    ∀ sid, ((c.satisfySequence q).2 sid).level = ((c.satisfySequence q').2 sid).level := by
  unfold Common.satisfySequence
  split
  · rename_i a _
    have ha := h a.sid
    have hset : ∀ sid, ((q.set a.sid ⟨(q a.sid).level + 1, (q a.sid).next⟩) sid).level =
        ((q'.set a.sid ⟨(q' a.sid).level + 1, (q' a.sid).next⟩) sid).level := by
      intro sid
      simp only [Seqs.set]
      split
      · simp [ha]
      · exact h sid
    simp only [Seqs.satisfy]
    by_cases hx : (q a.sid).level = a.seq
    · rw [if_pos hx, if_pos (ha ▸ hx)]
      exact ⟨rfl, hset⟩
    · rw [if_neg hx, if_neg (ha ▸ hx)]
      exact ⟨rfl, hset⟩
  · exact ⟨rfl, h⟩

theorem verify_alike (c : Common V) {q q' : Seqs} (h : ∀ sid, (q sid).level = (q' sid).level) (d : String) :
    c.verifySequence q d = c.verifySequence q' d := by
  unfold Common.verifySequence
  split
  · simp only [Seqs.verify, h]
  · rfl

/-- Before it takes effect, an operation depends on the world only by way of the places of the sequences, and the number
of expectations. -/
theorem SAct.inner_alike (env : Env V) (act : SAct V) (sf : StaticFn V) {w u : World V} (ht : act.pc.took = false)
    (hw : act.pc.working = true) (h : w.Alike u) :
    (act.inner env sf w).1 = (act.inner env sf u).1 ∧ (act.inner env sf w).2.1 = (act.inner env sf u).2.1 ∧
    (act.inner env sf w).2.2.Alike (act.inner env sf u).2.2 := by
  obtain ⟨tid, op, pc⟩ := act
  obtain ⟨q, n, m, l, r⟩ := w
  obtain ⟨q', n', m', l', r'⟩ := u
  obtain ⟨h1, h2, h3⟩ := h
  simp only at h1 h2 h3
  subst h2 h3
  have hal : ∀ x y : List (List (Build V)) , ∀ a b, World.Alike (V := V) ⟨q, n, x, l, a⟩ ⟨q', n, y, l, b⟩ :=
    fun _ _ _ _ => ⟨h1, rfl, rfl⟩
  cases pc <;> simp only [SPc.took, SPc.working, Bool.false_eq_true, Bool.true_eq_false] at ht hw
  case verify i =>
    simp only [SAct.inner]
    split
    · exact ⟨rfl, rfl, h1, rfl, rfl⟩
    · rename_i e _
      rw [verify_alike e.common h1]
      split
      · exact ⟨rfl, rfl, h1, rfl, rfl⟩
      · exact ⟨rfl, rfl, h1, rfl, rfl⟩
  case satisfy i =>
    simp only [SAct.inner]
    split
    · exact ⟨rfl, rfl, h1, rfl, rfl⟩
    · rename_i e _
      have hs := satisfy_alike e.common h1
      rw [← hs.1]
      split
      · exact ⟨rfl, rfl, hs.2, rfl, rfl⟩
      · exact ⟨rfl, rfl, hs.2, rfl, rfl⟩
  all_goals
    simp only [SAct.inner]
    repeat' split
    all_goals first
      | exact ⟨rfl, rfl, h1, rfl, rfl⟩
      | exact ⟨trivial, trivial, h1, rfl, rfl⟩
      | exact ⟨rfl, trivial, h1, rfl, rfl⟩
      | exact ⟨trivial, rfl, h1, rfl, rfl⟩

/-- What is left of an operation that has taken effect depends on the world only by way of the number of expectations in
the sequences that it still has to join, and only changes that. -/
theorem SAct.finish_took (env : Env V) (act : SAct V) (sf : StaticFn V) (ht : act.pc.took = true)
    (hi : act.pc.inside = true) (w u : World V) (hj : ∀ sid, act.Joins sid → w.joined sid = u.joined sid) :
    (act.finish env sf w).1 = (act.finish env sf u).1 ∧ (act.finish env sf w).2.1 = (act.finish env sf u).2.1 ∧
    (act.finish env sf w).2.2.Alike w ∧
    (∀ sid, ¬ act.Joins sid → (act.finish env sf w).2.2.joined sid = w.joined sid) ∧
    ∀ sid, w.joined sid = u.joined sid → (act.finish env sf w).2.2.joined sid = (act.finish env sf u).2.2.joined sid := by
  obtain ⟨tid, op, pc⟩ := act
  cases pc <;> simp [SPc.took, SPc.inside, SPc.working] at ht hi
  case ret i =>
    simp only [SAct.finish, SAct.rest]
    split
    · exact ⟨rfl, rfl, ⟨fun _ => rfl, rfl, rfl⟩, fun _ _ => rfl, fun _ h => h⟩
    · rename_i e _
      have h1 := ret_call_world (env.cx tid) (sf.mi.fn op.key) op.args e w u
      have h2 := ret_call_alike (env.cx tid) (sf.mi.fn op.key) op.args e w
      have h3 := ret_call_alike (env.cx tid) (sf.mi.fn op.key) op.args e u
      refine ⟨by rw [h1.1], by rw [h1.1, h1.2.1], h2.1, fun sid _ => ?_, fun sid h => ?_⟩
      · simp only [World.joined, h2.2]
      · simp only [World.joined, h2.2, h3.2]
        exact h
  case leave r => exact ⟨rfl, rfl, ⟨fun _ => rfl, rfl, rfl⟩, fun _ _ => rfl, fun _ h => h⟩
  case build i bs =>
    simp only [SAct.finish]
    split
    · exact ⟨rfl, rfl, ⟨fun _ => rfl, rfl, rfl⟩, fun _ _ => rfl, fun _ h => h⟩
    · rename_i e _
      have h1 := builds_seqs bs e e w.seqs u.seqs rfl fun sid hs => hj sid ⟨i, bs, rfl, hs⟩
      refine ⟨by rw [h1.1], by rw [h1.1, h1.2.1], ⟨h1.2.2.1, rfl, rfl⟩, fun sid hs => ?_, h1.2.2.2.2⟩
      simp only [World.joined]
      rw [h1.2.2.2.1 sid fun h => hs ⟨i, bs, rfl, h⟩]
  case leaveExpect i r => exact ⟨rfl, rfl, ⟨fun _ => rfl, rfl, rfl⟩, fun _ _ => rfl, fun _ h => h⟩
  case leaveDrain es => exact ⟨rfl, rfl, ⟨fun _ => rfl, rfl, rfl⟩, fun _ _ => rfl, fun _ h => h⟩

/-- The sequence, if any, lets a call to expectation `i` pass. -/
def Clear (sf : StaticFn V) (k : Key) (i : Nat) (q : Seqs) : Prop :=
  ∀ e, (sf.store.vec k)[i]? = some e → ∀ h, e.common.seqHandle = some h → h.seq = (q h.sid).level

/-- A call that has passed the check of the sequence could still pass it. -/
def SAct.Safe (act : SAct V) (sf : StaticFn V) (q : Seqs) : Prop :=
  ∀ i, act.pc = .sat i ∨ act.pc = .satisfy i → Clear sf act.op.key i q

/-- A step after which the operation has not taken effect leaves the world alone, and passes the check. -/
theorem SAct.inner_quiet (env : Env V) (act : SAct V) (sf : StaticFn V) (w : World V) (hw : act.pc.working = true)
    (ht : (act.inner env sf w).1.took = false) :
    act.pc.took = false ∧ (act.inner env sf w).2.2 = w ∧
    (act.Safe sf w.seqs → SAct.Safe { act with pc := (act.inner env sf w).1 } (act.inner env sf w).2.1 w.seqs) := by
  obtain ⟨tid, op, pc⟩ := act
  cases pc with
  | verify i =>
    simp only [SAct.inner] at ht ⊢
    rcases he : (sf.store.vec op.key)[i]? with _ | e
    · simp [he, SPc.took] at ht
    · simp only [he] at ht ⊢
      split at ht
      · simp [SPc.took] at ht
      · rename_i hv
        refine ⟨rfl, rfl, fun _ j hj => ?_⟩
        have : i = j := by simpa using hj
        subst this
        intro e' he' h hh
        simp only at he'
        rw [he] at he'
        cases he'
        simp only [Common.verifySequence, hh, Seqs.verify] at hv
        split at hv
        · assumption
        · cases hv
  | sat i =>
    simp only [SAct.inner] at ht ⊢
    rcases he : (sf.store.vec op.key)[i]? with _ | e
    · simp [he, SPc.took] at ht
    · simp only [he] at ht ⊢
      split at ht
      · rename_i hs
        rw [if_pos hs]
        refine ⟨rfl, rfl, fun hsafe j hj => ?_⟩
        have : i = j := by simpa using hj
        subst this
        exact hsafe i (.inl rfl)
      · simp [SPc.took] at ht
  | scan i =>
    simp only [SAct.inner] at ht ⊢
    rcases he : (sf.store.vec op.key)[i]? with _ | e
    · simp [he, SPc.took] at ht
    · refine ⟨rfl, rfl, fun _ j hj => ?_⟩
      simp only at hj
      split at hj <;> simp at hj
  | check i =>
    simp only [SAct.inner] at ht ⊢
    rcases he : (sf.store.vec op.key)[i]? with _ | e
    · simp [he, SPc.took] at ht
    · simp only [he] at ht ⊢
      split at ht
      · simp [SPc.took] at ht
      · refine ⟨rfl, rfl, fun _ j hj => ?_⟩
        simp only at hj
        split at hj <;> simp at hj
  | inc i =>
    simp only [SAct.inner] at ht ⊢
    rcases he : (sf.store.vec op.key)[i]? with _ | e
    · simp [he, SPc.took] at ht
    · simp only [he] at ht ⊢
      split at ht
      · simp [SPc.took] at ht
      · simp [SPc.took] at ht
      · refine ⟨rfl, by simp, fun _ j hj => ?_⟩
        simp at hj
  | satisfy i =>
    simp only [SAct.inner] at ht
    repeat' split at ht
    all_goals simp [SPc.took] at ht
  | ret i =>
    simp only [SAct.inner] at ht
    repeat' split at ht
    all_goals simp [SPc.took] at ht
  | push => simp [SAct.inner, SPc.took] at ht
  | drain => simp [SAct.inner, SPc.took] at ht
  | build i bs =>
    simp only [SAct.inner] at ht
    repeat' split at ht
    all_goals simp [SPc.took] at ht
  | _ => simp [SPc.working] at hw

/-- Such a step is possible in any world in which the sequence, if it was checked, lets the call pass. -/
theorem SAct.inner_quiet_at (env : Env V) (act : SAct V) (sf : StaticFn V) (w u : World V) (hw : act.pc.working = true)
    (ht : (act.inner env sf w).1.took = false)
    (hs : SAct.Safe { act with pc := (act.inner env sf w).1 } (act.inner env sf w).2.1 u.seqs) :
    act.Safe sf u.seqs ∧ act.inner env sf u = ((act.inner env sf w).1, (act.inner env sf w).2.1, u) := by
  obtain ⟨tid, op, pc⟩ := act
  cases pc with
  | verify i =>
    refine ⟨by intro j hj; simp at hj, ?_⟩
    simp only [SAct.inner] at ht hs ⊢
    rcases he : (sf.store.vec op.key)[i]? with _ | e
    · simp [he, SPc.took] at ht
    · simp only [he] at ht hs ⊢
      have hv : e.common.verifySequence w.seqs (callDesc (env.cx tid) (sf.mi.fn op.key) op.args) = .ok () := by
        split at ht
        · simp [SPc.took] at ht
        · assumption
      rw [hv] at hs ⊢
      have hc := hs i (.inl rfl) e he
      have hu : e.common.verifySequence u.seqs (callDesc (env.cx tid) (sf.mi.fn op.key) op.args) = .ok () := by
        unfold Common.verifySequence
        rcases hh : e.common.seqHandle with _ | a
        · rfl
        · simp [Seqs.verify, hc a hh]
      rw [hu]
  | sat i =>
    simp only [SAct.inner] at ht hs ⊢
    rcases he : (sf.store.vec op.key)[i]? with _ | e
    · simp [he, SPc.took] at ht
    · simp only [he] at ht hs ⊢
      split at ht
      · rename_i hsat
        rw [if_pos hsat] at hs
        rw [if_pos hsat, if_pos hsat]
        refine ⟨fun j hj => ?_, rfl⟩
        have : i = j := by simpa using hj
        subst this
        exact hs i (.inr rfl)
      · simp [SPc.took] at ht
  | scan i =>
    refine ⟨by intro j hj; simp at hj, ?_⟩
    simp only [SAct.inner] at ht ⊢
    rcases he : (sf.store.vec op.key)[i]? with _ | e
    · simp [he, SPc.took] at ht
    · rfl
  | check i =>
    refine ⟨by intro j hj; simp at hj, ?_⟩
    simp only [SAct.inner] at ht ⊢
    rcases he : (sf.store.vec op.key)[i]? with _ | e
    · simp [he, SPc.took] at ht
    · simp only [he] at ht ⊢
      split at ht
      · simp [SPc.took] at ht
      · rfl
  | inc i =>
    refine ⟨by intro j hj; simp at hj, ?_⟩
    simp only [SAct.inner] at ht ⊢
    rcases he : (sf.store.vec op.key)[i]? with _ | e
    · simp [he, SPc.took] at ht
    · simp only [he] at ht ⊢
      split at ht
      · simp [SPc.took] at ht
      · simp [SPc.took] at ht
      · rfl
  | satisfy i =>
    simp only [SAct.inner] at ht
    repeat' split at ht
    all_goals simp [SPc.took] at ht
  | ret i =>
    simp only [SAct.inner] at ht
    repeat' split at ht
    all_goals simp [SPc.took] at ht
  | push => simp [SAct.inner, SPc.took] at ht
  | drain => simp [SAct.inner, SPc.took] at ht
  | build i bs =>
    simp only [SAct.inner] at ht
    repeat' split at ht
    all_goals simp [SPc.took] at ht
  | _ => simp [SPc.working] at hw

/-- How one step changes the places of sequences: not at all, or it completes the place of an expectation of the
method. -/
theorem SAct.inner_seqs (env : Env V) (act : SAct V) (sf : StaticFn V) (w : World V)
    (hsafe : act.Safe sf w.seqs) :
    (∀ sid, ((act.inner env sf w).2.2.seqs sid).level = (w.seqs sid).level) ∨
    ∃ h, sf.Handles h ∧ h.seq = (w.seqs h.sid).level ∧
      ∀ sid, sid ≠ h.sid → ((act.inner env sf w).2.2.seqs sid).level = (w.seqs sid).level := by
  obtain ⟨tid, op, pc⟩ := act
  cases pc with
  | satisfy i =>
    rcases he : (sf.store.vec op.key)[i]? with _ | e
    · left
      simp only [SAct.inner, he, implies_true]
    · have hc := hsafe i (.inr rfl) e he
      have hq : (SAct.inner env ⟨tid, op, .satisfy i⟩ sf w).2.2.seqs = (e.common.satisfySequence w.seqs).2 := by
        simp only [SAct.inner, he]
        split <;> rfl
      rw [hq]
      rcases hh : e.common.seqHandle with _ | h
      · left
        simp [Common.satisfySequence, hh]
      · right
        refine ⟨h, ⟨op.key, e, List.mem_of_getElem? he, hh⟩, hc h hh, fun sid hs => ?_⟩
        simp only [Common.satisfySequence, hh, Seqs.satisfy]
        split <;> simp [Seqs.set, hs]
  | ret i =>
    simp only [SAct.inner]
    split
    · exact .inl fun _ => rfl
    · exact .inl (ret_call_alike _ _ _ _ _).1.level
  | build i bs =>
    simp only [SAct.inner]
    split
    · exact .inl fun _ => rfl
    · exact .inl fun _ => rfl
    · rename_i e b bs _
      have hbb := (build_seqs b e w.seqs w.seqs).2.2.1
      split
      · exact .inl hbb
      · exact .inl hbb
  | _ =>
    simp only [SAct.inner]
    repeat' split
    all_goals first | exact .inl fun _ => rfl | simp

/-- A state after a step of operation `id` on method `f`. -/
def ManyState.put (s : ManyState V) (id f : Nat) (sf : StaticFn V) (w : World V) (held : Option Nat) (act : SAct V) :
    ManyState V :=
  ⟨s.statics.set f sf, w, fun g => if g = f then held else s.held g, s.acts.set id ⟨f, act⟩⟩

/-- Nothing excluded: not a drop by a panicking thread.  The builder calls to come are in the statement. -/
structure SAct.Fine (act : SAct V) : Prop where
  op : act.op ≠ .dropPanicking
  pc : act.pc ≠ .clear ∧ act.pc ≠ .tryWait
  rest : ∀ i bs, act.pc = .build i bs → ∀ b ∈ bs, b ∈ act.op.chain

/-- The invariant of the machine itself. -/
structure ManyBase (s : ManyState V) : Prop where
  fine : ∀ x ∈ s.acts, x.fn < s.statics.length ∧ x.act.Fine
  holder : ∀ (id : Nat) (x : TAct V), s.acts[id]? = some x → (x.act.pc.inside = true ↔ s.held x.fn = some id)
  held : ∀ f h : Nat, s.held f = some h → ∃ x : TAct V, s.acts[h]? = some x ∧ x.fn = f
  clean : ∀ (f h : Nat) (sf : StaticFn V), s.held f = some h → s.statics[f]? = some sf → sf.poison = false
  safe : ∀ (id : Nat) (x : TAct V) (sf : StaticFn V), s.acts[id]? = some x → s.statics[x.fn]? = some sf →
    x.act.Safe sf s.world.seqs
  apart : ∀ (f f' : Nat) (sf sf' : StaticFn V) (h : SeqHandle), s.statics[f]? = some sf → s.statics[f']? = some sf' →
    sf.Handles h → sf'.Handles h → f = f'
  bound : ∀ (f : Nat) (sf : StaticFn V) (h : SeqHandle), s.statics[f]? = some sf → sf.Handles h →
    h.seq < s.world.joined h.sid

/-- What a step of operation `id` may do to the mutex of its method. -/
def HeldCase (id : Nat) (held held' : Option Nat) (sf sf' : StaticFn V) (w w' : World V) : Prop :=
  ((held = some id ∨ held = none) ∧ (held' = some id ∨ held' = none)) ∨
  (held ≠ some id ∧ sf' = sf ∧ held' = held ∧ w' = w)

theorem HeldCase.other {id : Nat} {held held' : Option Nat} {sf sf' : StaticFn V} {w w' : World V}
    (h : HeldCase id held held' sf sf' w w') {j : Nat} (hj : j ≠ id) : held' = some j ↔ held = some j := by
  rcases h with ⟨h1, h2⟩ | ⟨_, _, h2, _⟩
  · constructor
    · intro h3
      rcases h2 with h2 | h2 <;> rw [h2] at h3 <;> simp at h3
      exact absurd h3.symm hj
    · intro h3
      rcases h1 with h1 | h1 <;> rw [h1] at h3 <;> simp at h3
      exact absurd h3.symm hj
  · rw [h2]

theorem ManyState.put_acts {s : ManyState V} {id : Nat} {x : TAct V} (hid : s.acts[id]? = some x) (f : Nat)
    (sf : StaticFn V) (w : World V) (held : Option Nat) (act : SAct V) (j : Nat) :
    (s.put id f sf w held act).acts[j]? = if j = id then some ⟨f, act⟩ else s.acts[j]? := by
  have hlt := (List.getElem?_eq_some_iff.mp hid).1
  simp only [ManyState.put, List.getElem?_set]
  by_cases hj : j = id
  · subst hj; simp [hlt]
  · simp [hj, Ne.symm hj]

theorem ManyState.put_statics {s : ManyState V} {f : Nat} {sf : StaticFn V} (hf : s.statics[f]? = some sf) (id : Nat)
    (sf' : StaticFn V) (w : World V) (held : Option Nat) (act : SAct V) (g : Nat) :
    (s.put id f sf' w held act).statics[g]? = if g = f then some sf' else s.statics[g]? := by
  have hlt := (List.getElem?_eq_some_iff.mp hf).1
  simp only [ManyState.put, List.getElem?_set]
  by_cases hj : g = f
  · subst hj; simp [hlt]
  · simp [hj, Ne.symm hj]

theorem ManyBase.put {s : ManyState V} (h : ManyBase s) {id : Nat} {x : TAct V} (hid : s.acts[id]? = some x)
    {sf sf' : StaticFn V} (hsf : s.statics[x.fn]? = some sf) {w' : World V} {held' : Option Nat} {act' : SAct V}
    (hfine : act'.Fine) (hin : act'.pc.inside = true ↔ held' = some id)
    (hcase : HeldCase id (s.held x.fn) held' sf sf' s.world w')
    (hclean : held' = some id → sf'.poison = false) (hsub : ∀ a, sf'.Handles a →
      sf.Handles a ∨ (a.seq = s.world.joined a.sid ∧ w'.joined a.sid = a.seq + 1))
    (hmono : ∀ sid, s.world.joined sid ≤ w'.joined sid) (hsafe : act'.Safe sf' w'.seqs)
    (hseqs : (∀ sid, (w'.seqs sid).level = (s.world.seqs sid).level) ∨
      ∃ a, sf.Handles a ∧ a.seq = (s.world.seqs a.sid).level ∧
        ∀ sid, sid ≠ a.sid → (w'.seqs sid).level = (s.world.seqs sid).level) :
    ManyBase (s.put id x.fn sf' w' held' act') := by
  have hacts := ManyState.put_acts hid x.fn sf' w' held' act'
  have hstat := ManyState.put_statics hsf id sf' w' held' act'
  have hheld : ∀ g, (s.put id x.fn sf' w' held' act').held g = if g = x.fn then held' else s.held g := fun _ => rfl
  have hoth : ∀ (g : Nat) (sg : StaticFn V), (s.put id x.fn sf' w' held' act').statics[g]? = some sg → ∀ a, sg.Handles a →
      (∃ sg0, s.statics[g]? = some sg0 ∧ sg0.Handles a) ∨
      (g = x.fn ∧ a.seq = s.world.joined a.sid ∧ w'.joined a.sid = a.seq + 1) := by
    intro g sg hg a ha
    rw [hstat] at hg
    split at hg
    · rename_i hgf
      subst hgf
      cases hg
      rcases hsub a ha with h1 | h1
      · exact .inl ⟨sf, hsf, h1⟩
      · exact .inr ⟨rfl, h1⟩
    · exact .inl ⟨sg, hg, ha⟩
  refine ⟨?_, ?_, ?_, ?_, ?_, ?_, ?_⟩
  · intro y hy
    simp only [ManyState.put, List.length_set]
    rcases List.mem_or_eq_of_mem_set hy with hy | rfl
    · exact h.fine y hy
    · exact ⟨(h.fine x (List.mem_of_getElem? hid)).1, hfine⟩
  · intro j y hj
    rw [hacts] at hj
    rw [hheld]
    split at hj
    · rename_i hji
      cases hj
      subst hji
      simpa using hin
    · rename_i hji
      rw [h.holder j y hj]
      split
      · rename_i hf
        rw [hf]
        exact (hcase.other hji).symm
      · rfl
  · intro g j hg
    rw [hheld] at hg
    by_cases hji : j = id
    · subst hji
      refine ⟨⟨x.fn, act'⟩, by rw [hacts]; simp, ?_⟩
      split at hg
      · rename_i hgf; exact hgf.symm
      · obtain ⟨y, hy, hyf⟩ := h.held g j hg
        rw [hid] at hy
        cases hy
        exact hyf
    · have : s.held g = some j := by
        split at hg
        · rename_i hgf
          rw [hgf]
          exact (hcase.other hji).mp hg
        · exact hg
      obtain ⟨y, hy, hyf⟩ := h.held g j this
      exact ⟨y, by rw [hacts, if_neg hji]; exact hy, hyf⟩
  · intro g j sg hg hs
    rw [hheld] at hg
    rw [hstat] at hs
    by_cases hgf : g = x.fn
    · rw [if_pos hgf] at hg hs
      cases hs
      by_cases hji : j = id
      · subst hji
        exact hclean hg
      · have h1 := (hcase.other hji).mp hg
        rcases hcase with ⟨h2 | h2, _⟩ | ⟨_, h2, _, _⟩
        · rw [h2] at h1; simp at h1; exact absurd h1.symm hji
        · rw [h2] at h1; simp at h1
        · subst h2
          exact h.clean x.fn j sf' h1 hsf
    · rw [if_neg hgf] at hg hs
      exact h.clean g j sg hg hs
  · intro j y sg hj hs
    rw [hacts] at hj
    rw [hstat] at hs
    by_cases hji : j = id
    · rw [if_pos hji] at hj
      cases hj
      simp only [if_true] at hs
      cases hs
      exact hsafe
    · rw [if_neg hji] at hj
      intro i hpc
      have hins : y.act.pc.inside = true := by
        rcases hpc with hpc | hpc <;> rw [hpc] <;> rfl
      have hyh := (h.holder j y hj).mp hins
      by_cases hyf : y.fn = x.fn
      · rw [if_pos hyf] at hs
        cases hs
        rw [hyf] at hyh
        rcases hcase with ⟨h2 | h2, _⟩ | ⟨_, h2, _, h3⟩
        · rw [h2] at hyh; simp at hyh; exact absurd hyh.symm hji
        · rw [h2] at hyh; simp at hyh
        · subst h2 h3
          exact h.safe j y sf' hj (by rw [hyf]; exact hsf) i hpc
      · rw [if_neg hyf] at hs
        have hold := h.safe j y sg hj hs i hpc
        intro e he a ha
        have h1 := hold e he a ha
        change a.seq = (w'.seqs a.sid).level
        rcases hseqs with hseqs | ⟨b, hb, hbl, hbo⟩
        · rw [hseqs]; exact h1
        · by_cases hsid : a.sid = b.sid
          · exfalso
            have hab : a = b := by
              obtain ⟨a1, a2⟩ := a
              obtain ⟨b1, b2⟩ := b
              simp only at h1 hbl hsid
              subst hsid
              rw [h1, hbl]
            subst hab
            exact hyf (h.apart y.fn x.fn sg sf a hs hsf ⟨_, e, List.mem_of_getElem? he, ha⟩ hb)
          · rw [hbo _ hsid]; exact h1
  · intro g g' sg sg' a hg hg' ha ha'
    rcases hoth g sg hg a ha with ⟨t, ht, hta⟩ | ⟨h1, h2, _⟩
    · rcases hoth g' sg' hg' a ha' with ⟨t', ht', hta'⟩ | ⟨_, h2, _⟩
      · exact h.apart g g' t t' a ht ht' hta hta'
      · exact absurd (h.bound g t a ht hta) (by omega)
    · rcases hoth g' sg' hg' a ha' with ⟨t', ht', hta'⟩ | ⟨h1', _⟩
      · exact absurd (h.bound g' t' a ht' hta') (by omega)
      · rw [h1, h1']
  · intro g sg a hg ha
    change a.seq < w'.joined a.sid
    rcases hoth g sg hg a ha with ⟨t, ht, hta⟩ | ⟨_, _, h2⟩
    · exact Nat.lt_of_lt_of_le (h.bound g t a ht hta) (hmono _)
    · omega

/-- The operation that holds the mutex of method `f`. -/
def ManyState.holding (s : ManyState V) (f : Nat) : Option (SAct V) :=
  (s.held f).bind fun h => (s.acts[h]?).map TAct.act

/-- How a method is related to the same method in the sequential program. -/
def Shadow (env : Env V) (holder : Option (SAct V)) (sf : StaticFn V) (w : World V) (σf : StaticFn V) : Prop :=
  match holder with
  | none => σf = sf
  | some act =>
    if act.pc.took then σf = (act.finish env sf w).2.1
    else σf.poison = false ∧
      ∀ w : World V, act.Safe sf w.seqs → SAct.finish env { act with pc := act.op.first } σf w = act.finish env sf w

/-- The sequential program that these operations amount to. -/
def ManyState.program (s : ManyState V) (lin : List Nat) : List (Op V) :=
  lin.filterMap fun id => (s.acts[id]?).map fun x => Props.seqOp x.fn x.act

/-- What the operation with this number will report. -/
def ManyState.foreseen (env : Env V) (s : ManyState V) (id : Nat) : Option (Obs V) :=
  (s.acts[id]?).map fun x =>
    match s.statics[x.fn]? with
    | none => .invalid
    | some sf =>
      if s.held x.fn = some id then (x.act.finish env sf s.world).1 else Props.SAct.outcome env sf.mi x.act

/-- The invariant that relates the machine to a sequential program. -/
structure ManyLin (env : Env V) (s0 : Sys V) (s : ManyState V) (lin : List Nat) (outs : List (Obs V)) (σ : Sys V) :
    Prop where
  run : Sys.run env (s.program lin) s0 = (outs, σ)
  nodup : lin.Nodup
  range : ∀ id ∈ lin, id < s.acts.length
  took : ∀ (id : Nat) (x : TAct V), s.acts[id]? = some x → (id ∈ lin ↔ x.act.pc.took = true)
  objs : σ.objs = s0.objs
  len : σ.statics.length = s.statics.length
  alike : σ.world.Alike s.world
  same : ∀ sid, (∀ (id : Nat) (x : TAct V), s.acts[id]? = some x → ¬ x.act.Joins sid) →
    σ.world.joined sid = s.world.joined sid
  ahead : ∀ (id : Nat) (x : TAct V) (sf : StaticFn V) (sid : Nat), s.acts[id]? = some x → s.statics[x.fn]? = some sf →
    x.act.Joins sid → σ.world.joined sid = (x.act.finish env sf s.world).2.2.joined sid
  shadow : ∀ (f : Nat) (sf : StaticFn V), s.statics[f]? = some sf →
    ∃ σf, σ.statics[f]? = some σf ∧ Shadow env (s.holding f) sf s.world σf
  obs : outs.map some = lin.map (s.foreseen env)

theorem holding_other {s : ManyState V} (h : ManyBase s) {id : Nat} {x : TAct V} (hid : s.acts[id]? = some x)
    (sf' : StaticFn V) (w' : World V) (held' : Option Nat) (act' : SAct V) {g : Nat} (hg : g ≠ x.fn) :
    (s.put id x.fn sf' w' held' act').holding g = s.holding g := by
  have hacts := ManyState.put_acts hid x.fn sf' w' held' act'
  simp only [ManyState.holding]
  have hh : (s.put id x.fn sf' w' held' act').held g = s.held g := by simp [ManyState.put, hg]
  rw [hh]
  rcases hj : s.held g with _ | j
  · rfl
  · simp only [Option.bind_some]
    rw [hacts, if_neg]
    intro hji
    subst hji
    obtain ⟨y, hy, hyf⟩ := h.held g j hj
    rw [hid] at hy
    cases hy
    exact hg hyf.symm

theorem holding_self {s : ManyState V} {id : Nat} {x : TAct V} (hid : s.acts[id]? = some x)
    {sf sf' : StaticFn V} {w' : World V} {held' : Option Nat} {act' : SAct V}
    (hcase : HeldCase id (s.held x.fn) held' sf sf' s.world w') :
    (s.put id x.fn sf' w' held' act').holding x.fn =
      if held' = some id then some act' else if held' = none then none else s.holding x.fn := by
  have hacts := ManyState.put_acts hid x.fn sf' w' held' act'
  have hh : (s.put id x.fn sf' w' held' act').held x.fn = held' := by simp [ManyState.put]
  simp only [ManyState.holding, hh]
  rcases held' with _ | j
  · simp
  · simp only [Option.bind_some, hacts]
    by_cases hji : j = id
    · subst hji; simp
    · rw [(hcase.other hji).mp rfl]
      simp [hji]

theorem foreseen_other {env : Env V} {s : ManyState V} (h : ManyBase s) {id : Nat} {x : TAct V}
    (hid : s.acts[id]? = some x) {sf sf' : StaticFn V} (hsf : s.statics[x.fn]? = some sf) (hmi : sf'.mi = sf.mi)
    {w' : World V} {held' : Option Nat} {act' : SAct V} (hcase : HeldCase id (s.held x.fn) held' sf sf' s.world w')
    {j : Nat} (hj : j ≠ id) (ht : ∀ y : TAct V, s.acts[j]? = some y → y.act.pc.took = true)
    (hk : ∀ y : TAct V, s.acts[j]? = some y → ∀ sid, y.act.Joins sid → w'.joined sid = s.world.joined sid) :
    (s.put id x.fn sf' w' held' act').foreseen env j = s.foreseen env j := by
  have hacts := ManyState.put_acts hid x.fn sf' w' held' act'
  have hstat := ManyState.put_statics hsf id sf' w' held' act'
  simp only [ManyState.foreseen, hacts, if_neg hj, hstat]
  rcases hy : s.acts[j]? with _ | y
  · rfl
  · simp only [Option.map_some, Option.some.injEq]
    by_cases hyf : y.fn = x.fn
    · rw [hyf, hsf]
      simp only [if_true]
      have hh : (s.put id x.fn sf' w' held' act').held x.fn = held' := by simp [ManyState.put]
      rw [hh]
      simp only [hcase.other hj]
      split
      · rename_i hjh
        rcases hcase with ⟨h2 | h2, _⟩ | ⟨_, h2, _, h3⟩
        · rw [h2] at hjh; simp at hjh; exact absurd hjh.symm hj
        · rw [h2] at hjh; simp at hjh
        · subst h2 h3
          rfl
      · rw [hmi]
    · rw [if_neg hyf]
      have hh : (s.put id x.fn sf' w' held' act').held y.fn = s.held y.fn := by simp [ManyState.put, hyf]
      rw [hh]
      rcases hsg : s.statics[y.fn]? with _ | sg
      · rfl
      · simp only
        split
        · rename_i hjh
          exact (SAct.finish_took env y.act sg (ht y hy) ((h.holder j y hy).mpr hjh) _ _ (hk y hy)).1
        · rfl

theorem program_put {s : ManyState V} {id : Nat} {x : TAct V} (hid : s.acts[id]? = some x) {act' : SAct V}
    (hop : act'.op = x.act.op) (htid : act'.tid = x.act.tid) (sf' : StaticFn V) (w' : World V) (held' : Option Nat)
    (lin : List Nat) : (s.put id x.fn sf' w' held' act').program lin = s.program lin := by
  have hacts := ManyState.put_acts hid x.fn sf' w' held' act'
  unfold ManyState.program
  congr 1
  funext j
  rw [hacts]
  split
  · rename_i hj
    subst hj
    simp [hid, Props.seqOp_congr x.fn hop htid]
  · rfl

theorem SAct.Joins.inside {act : SAct V} {sid : Nat} (h : act.Joins sid) :
    act.pc.inside = true ∧ act.pc.took = true := by
  obtain ⟨i, bs, e, _⟩ := h
  rw [e]
  exact ⟨rfl, rfl⟩

/-- A step of one operation does not change what the others have to do to sequences, and is part of what it has to do
itself. -/
structure JoinStep (env : Env V) (s : ManyState V) (id : Nat) (x : TAct V) (sf sf' : StaticFn V) (w' : World V)
    (act' : SAct V) : Prop where
  keep : ∀ sid, ¬ x.act.Joins sid → w'.joined sid = s.world.joined sid
  less : ∀ sid, act'.Joins sid → x.act.Joins sid
  go : ∀ sid, act'.Joins sid →
    (act'.finish env sf' w').2.2.joined sid = (x.act.finish env sf s.world).2.2.joined sid
  stop : ∀ sid, x.act.Joins sid → ¬ act'.Joins sid → w'.joined sid = (x.act.finish env sf s.world).2.2.joined sid
  excl : ∀ sid, x.act.Joins sid → ∀ (j : Nat) (y : TAct V), j ≠ id → s.acts[j]? = some y → ¬ y.act.Joins sid

theorem JoinStep.none {env : Env V} {s : ManyState V} {id : Nat} {x : TAct V} {sf sf' : StaticFn V} {w' : World V}
    {act' : SAct V} (hx : ∀ i bs, x.act.pc ≠ .build i bs) (hx' : ∀ i bs, act'.pc ≠ .build i bs)
    (hk : ∀ sid, w'.joined sid = s.world.joined sid) : JoinStep env s id x sf sf' w' act' :=
  ⟨fun sid _ => hk sid, fun sid h => absurd h (not_joins hx' sid), fun sid h => absurd h (not_joins hx' sid),
    fun sid h => absurd h (not_joins hx sid), fun sid h => absurd h (not_joins hx sid)⟩

theorem JoinStep.others {env : Env V} {s : ManyState V} {id : Nat} {x : TAct V} {sf sf' : StaticFn V} {w' : World V}
    {act' : SAct V} (h : JoinStep env s id x sf sf' w' act') {j : Nat} (hj : j ≠ id) (y : TAct V)
    (hy : s.acts[j]? = some y) (sid : Nat) (hs : y.act.Joins sid) : w'.joined sid = s.world.joined sid :=
  h.keep sid fun hx => h.excl sid hx j y hj hy hs

/-- What another operation still has to do to sequences stays the same. -/
theorem ahead_other {env : Env V} {s : ManyState V} (hb : ManyBase s) {id : Nat} {x : TAct V}
    {sf sf' : StaticFn V} (hsf : s.statics[x.fn]? = some sf) {w' : World V} {held' : Option Nat} {act' : SAct V}
    (hcase : HeldCase id (s.held x.fn) held' sf sf' s.world w')
    (hk : ∀ (j : Nat) (y : TAct V), j ≠ id → s.acts[j]? = some y → ∀ sid, y.act.Joins sid →
      w'.joined sid = s.world.joined sid)
    {j : Nat} {y : TAct V} (hji : j ≠ id) (hy : s.acts[j]? = some y) {sid : Nat} (hs : y.act.Joins sid) {sg : StaticFn V}
    (hg : (s.put id x.fn sf' w' held' act').statics[y.fn]? = some sg) :
    ∃ sg0, s.statics[y.fn]? = some sg0 ∧
      (y.act.finish env sg w').2.2.joined sid = (y.act.finish env sg0 s.world).2.2.joined sid := by
  have hin := hs.inside
  have hfin := fun sg0 : StaticFn V => (SAct.finish_took env y.act sg0 hin.2 hin.1 w' s.world (hk j y hji hy)).2.2.2.2 sid
    (hk j y hji hy sid hs)
  rw [ManyState.put_statics hsf] at hg
  by_cases hyf : y.fn = x.fn
  · rw [if_pos hyf] at hg
    cases hg
    have hyh := (hb.holder j y hy).mp hin.1
    rw [hyf] at hyh
    rcases hcase with ⟨h2 | h2, _⟩ | ⟨_, h2, _, h3⟩
    · rw [h2] at hyh; simp at hyh; exact absurd hyh.symm hji
    · rw [h2] at hyh; simp at hyh
    · subst h2
      exact ⟨sf', by rw [hyf]; exact hsf, hfin sf'⟩
  · rw [if_neg hyf] at hg
    exact ⟨sg, hg, hfin sg⟩

theorem shadow_other {env : Env V} {s : ManyState V} (hb : ManyBase s) {id : Nat} {x : TAct V}
    (hid : s.acts[id]? = some x) (sf' : StaticFn V) {w' : World V} (held' : Option Nat) (act' : SAct V)
    (hk : ∀ (j : Nat) (y : TAct V), j ≠ id → s.acts[j]? = some y → ∀ sid, y.act.Joins sid →
      w'.joined sid = s.world.joined sid)
    {g : Nat} (hg : g ≠ x.fn) {sg σg : StaticFn V} (h : Shadow env (s.holding g) sg s.world σg) :
    Shadow env ((s.put id x.fn sf' w' held' act').holding g) sg w' σg := by
  rw [holding_other hb hid sf' w' held' act' hg]
  rcases hh : s.held g with _ | j
  · simp only [ManyState.holding, hh, Option.bind_none, Shadow] at h ⊢
    exact h
  · obtain ⟨y, hy, hyf⟩ := hb.held g j hh
    have hji : j ≠ id := by
      intro e
      subst e
      rw [hid] at hy
      cases hy
      exact hg hyf.symm
    simp only [ManyState.holding, hh, Option.bind_some, hy, Option.map_some, Shadow] at h ⊢
    split
    · rename_i ht
      rw [if_pos ht] at h
      rw [h]
      exact ((SAct.finish_took env y.act sg ht ((hb.holder j y hy).mpr (by rw [hyf]; exact hh)) _ _
        (hk j y hji hy)).2.1).symm
    · rename_i ht
      rw [if_neg ht] at h
      exact h

/-- A step at which the operation does not take effect. -/
theorem ManyLin.step {env : Env V} {s0 : Sys V} {s : ManyState V} {lin : List Nat} {outs : List (Obs V)} {σ : Sys V}
    (h : ManyLin env s0 s lin outs σ) (hb : ManyBase s) {id : Nat} {x : TAct V} (hid : s.acts[id]? = some x)
    {sf sf' : StaticFn V} (hsf : s.statics[x.fn]? = some sf) (hmi : sf'.mi = sf.mi) {w' : World V}
    {held' : Option Nat} {act' : SAct V} (hop : act'.op = x.act.op) (htid : act'.tid = x.act.tid)
    (hcase : HeldCase id (s.held x.fn) held' sf sf' s.world w') (ht : act'.pc.took = x.act.pc.took)
    (hw : s.world.Alike w') (hjs : JoinStep env s id x sf sf' w' act')
    (hrel : ∀ σf, Shadow env (s.holding x.fn) sf s.world σf →
      Shadow env ((s.put id x.fn sf' w' held' act').holding x.fn) sf' w' σf)
    (hpred : x.act.pc.took = true → (s.put id x.fn sf' w' held' act').foreseen env id = s.foreseen env id) :
    ManyLin env s0 (s.put id x.fn sf' w' held' act') lin outs σ := by
  have hacts := ManyState.put_acts hid x.fn sf' w' held' act'
  have hstat := ManyState.put_statics hsf id sf' w' held' act'
  have hkeep : ∀ (j : Nat) (y : TAct V), j ≠ id → s.acts[j]? = some y → ∀ sid, y.act.Joins sid →
      w'.joined sid = s.world.joined sid := fun j y hj hy => hjs.others hj y hy
  refine ⟨?_, h.nodup, ?_, ?_, h.objs, ?_, h.alike.trans hw, ?_, ?_, ?_, ?_⟩
  · rw [program_put hid hop htid]
    exact h.run
  · intro j hj
    simpa [ManyState.put] using h.range j hj
  · intro j y hj
    rw [hacts] at hj
    split at hj
    · rename_i hji
      cases hj
      subst hji
      rw [h.took j x hid, ht]
    · exact h.took j y hj
  · rw [h.len]; simp [ManyState.put]
  · intro sid hno
    change σ.world.joined sid = w'.joined sid
    have hno' : ¬ act'.Joins sid := hno id ⟨x.fn, act'⟩ (by rw [hacts, if_pos rfl])
    by_cases hx : x.act.Joins sid
    · rw [h.ahead id x sf sid hid hsf hx, hjs.stop sid hx hno']
    · rw [hjs.keep sid hx]
      refine h.same sid fun j y hj => ?_
      by_cases hji : j = id
      · subst hji
        rw [hid] at hj
        cases hj
        exact hx
      · exact hno j y (by rw [hacts, if_neg hji]; exact hj)
  · intro j y sg sid hj hg hs
    change σ.world.joined sid = (y.act.finish env sg w').2.2.joined sid
    by_cases hji : j = id
    · rw [hacts, if_pos hji] at hj
      cases hj
      rw [hstat, if_pos rfl] at hg
      cases hg
      rw [hjs.go sid hs]
      exact h.ahead id x sf sid hid hsf (hjs.less sid hs)
    · rw [hacts, if_neg hji] at hj
      obtain ⟨sg0, h1, h2⟩ := ahead_other (env := env) hb hsf hcase hkeep hji hj hs hg
      rw [h2]
      exact h.ahead j y sg0 sid hj h1 hs
  · intro g sg hg
    rw [hstat] at hg
    by_cases hgf : g = x.fn
    · rw [if_pos hgf] at hg
      cases hg
      subst hgf
      obtain ⟨σf, h1, h2⟩ := h.shadow x.fn sf hsf
      exact ⟨σf, h1, hrel σf h2⟩
    · rw [if_neg hgf] at hg
      obtain ⟨σg, h1, h2⟩ := h.shadow g sg hg
      exact ⟨σg, h1, shadow_other hb hid sf' held' act' hkeep hgf h2⟩
  · rw [h.obs]
    apply List.map_congr_left
    intro j hj
    by_cases hji : j = id
    · subst hji
      exact (hpred ((h.took j x hid).mp hj)).symm
    · exact (foreseen_other hb hid hsf hmi hcase hji (fun y hy => (h.took j y hy).mp hj)
        fun y hy => hkeep j y hji hy).symm

/-- A step at which the operation takes effect. -/
theorem ManyLin.take {env : Env V} {s0 : Sys V} {s : ManyState V} {lin : List Nat} {outs : List (Obs V)} {σ : Sys V}
    (h : ManyLin env s0 s lin outs σ) (hb : ManyBase s) {id : Nat} {x : TAct V} (hid : s.acts[id]? = some x)
    {sf sf' : StaticFn V} (hsf : s.statics[x.fn]? = some sf) (hmi : sf'.mi = sf.mi) {w' : World V}
    {held' : Option Nat} {act' : SAct V} (hop : act'.op = x.act.op) (htid : act'.tid = x.act.tid)
    (hcase : HeldCase id (s.held x.fn) held' sf sf' s.world w') (ht : x.act.pc.took = false)
    (ht' : act'.pc.took = true) {o : Obs V} {σf : StaticFn V} {u : World V}
    (hstep : σ.step env (Props.seqOp x.fn x.act) = (o, Props.embed σ x.fn σf u)) (hw : u.Alike w')
    (hkeep : ∀ sid, w'.joined sid = s.world.joined sid)
    (hu : ∀ sid, ¬ act'.Joins sid → u.joined sid = σ.world.joined sid)
    (hu' : ∀ sid, act'.Joins sid → u.joined sid = (act'.finish env sf' w').2.2.joined sid ∧
      ∀ (j : Nat) (y : TAct V), j ≠ id → s.acts[j]? = some y → ¬ y.act.Joins sid)
    (hrel : Shadow env ((s.put id x.fn sf' w' held' act').holding x.fn) sf' w' σf)
    (hpred : (s.put id x.fn sf' w' held' act').foreseen env id = some o) :
    ManyLin env s0 (s.put id x.fn sf' w' held' act') (lin ++ [id]) (outs ++ [o]) (Props.embed σ x.fn σf u) := by
  have hacts := ManyState.put_acts hid x.fn sf' w' held' act'
  have hstat := ManyState.put_statics hsf id sf' w' held' act'
  have hlt := (List.getElem?_eq_some_iff.mp hid).1
  have hflt := (List.getElem?_eq_some_iff.mp hsf).1
  have hnot : id ∉ lin := by rw [h.took id x hid, ht]; simp
  have hxj : ∀ sid, ¬ x.act.Joins sid := fun sid hj => by
    have := hj.inside.2
    rw [ht] at this
    simp at this
  refine ⟨?_, ?_, ?_, ?_, h.objs, ?_, hw, ?_, ?_, ?_, ?_⟩
  · have hp : (s.put id x.fn sf' w' held' act').program (lin ++ [id]) =
        s.program lin ++ [Props.seqOp x.fn x.act] := by
      rw [program_put hid hop htid]
      simp [ManyState.program, hid]
    rw [hp, Props.run_append, h.run]
    simp only [Sys.run]
    rw [hstep]
  · rw [List.nodup_append]
    exact ⟨h.nodup, by simp, by intro a ha b hb hab; simp at hb; subst hb; subst hab; exact hnot ha⟩
  · intro j hj
    simp only [List.mem_append, List.mem_singleton] at hj
    rcases hj with hj | rfl
    · simpa [ManyState.put] using h.range j hj
    · simpa [ManyState.put] using hlt
  · intro j y hj
    rw [hacts] at hj
    split at hj
    · rename_i hji
      cases hj
      subst hji
      simp [ht']
    · rename_i hji
      rw [← h.took j y hj]
      simp [hji]
  · simp [ManyState.put, Props.embed, h.len]
  · intro sid hno
    change u.joined sid = w'.joined sid
    rw [hu sid (hno id ⟨x.fn, act'⟩ (by rw [hacts, if_pos rfl])), hkeep]
    refine h.same sid fun j y hj => ?_
    by_cases hji : j = id
    · subst hji
      rw [hid] at hj
      cases hj
      exact hxj sid
    · exact hno j y (by rw [hacts, if_neg hji]; exact hj)
  · intro j y sg sid hj hg hs
    change u.joined sid = (y.act.finish env sg w').2.2.joined sid
    by_cases hji : j = id
    · rw [hacts, if_pos hji] at hj
      cases hj
      rw [hstat, if_pos rfl] at hg
      cases hg
      exact (hu' sid hs).1
    · rw [hacts, if_neg hji] at hj
      obtain ⟨sg0, h1, h2⟩ := ahead_other (env := env) hb hsf hcase (fun _ _ _ _ sid _ => hkeep sid) hji hj hs hg
      rw [h2, hu sid fun hx => (hu' sid hx).2 j y hji hj hs]
      exact h.ahead j y sg0 sid hj h1 hs
  · intro g sg hg
    rw [hstat] at hg
    by_cases hgf : g = x.fn
    · rw [if_pos hgf] at hg
      cases hg
      subst hgf
      exact ⟨σf, by simp [Props.embed, h.len, hflt], hrel⟩
    · rw [if_neg hgf] at hg
      obtain ⟨σg, h1, h2⟩ := h.shadow g sg hg
      exact ⟨σg, by simp only [Props.embed]; rw [List.getElem?_set_ne (Ne.symm hgf)]; exact h1,
        shadow_other hb hid sf' held' act' (fun _ _ _ _ sid _ => hkeep sid) hgf h2⟩
  · simp only [List.map_append, List.map_cons, List.map_nil, h.obs, hpred]
    congr 1
    apply List.map_congr_left
    intro j hj
    have hji : j ≠ id := fun e => hnot (e ▸ hj)
    exact (foreseen_other hb hid hsf hmi hcase hji (fun y hy => (h.took j y hy).mp hj)
      fun _ _ sid _ => hkeep sid).symm

theorem stepAct_put {env : Env V} {s : ManyState V} {id : Nat} {x : TAct V} (hid : s.acts[id]? = some x)
    {sf sf' : StaticFn V} (hsf : s.statics[x.fn]? = some sf) {w' : World V} {held' : Option Nat} {act' : SAct V}
    (hs : x.act.step env id ⟨sf, s.world, s.held x.fn, s.acts.map TAct.act⟩ =
      some ⟨sf', w', held', (s.acts.map TAct.act).set id act'⟩) :
    s.step env (.step id) = s.put id x.fn sf' w' held' act' := by
  have hlt := (List.getElem?_eq_some_iff.mp hid).1
  simp only [ManyState.step, hid, ManyState.stepAct, hsf, hs, Option.map_some, Option.getD_some]
  simp [ManyState.put, hlt]

/-- Both invariants hold after one more step, and operations only take effect at the end of the order. -/
def ManyNext (env : Env V) (s0 : Sys V) (s' : ManyState V) (lin : List Nat) : Prop :=
  ManyBase s' ∧ ∃ ext outs σ, ManyLin env s0 s' (lin ++ ext) outs σ

theorem shadow_took {env : Env V} {act : SAct V} {sf σf : StaticFn V} {w : World V} (ht : act.pc.took = true) :
    Shadow env (some act) sf w σf ↔ σf = (act.finish env sf w).2.1 := by
  simp [Shadow, ht]

theorem shadow_pending {env : Env V} {act : SAct V} {sf σf : StaticFn V} {u : World V} (ht : act.pc.took = false) :
    Shadow env (some act) sf u σf ↔ σf.poison = false ∧
      ∀ w : World V, act.Safe sf w.seqs →
        SAct.finish env { act with pc := act.op.first } σf w = act.finish env sf w := by
  simp [Shadow, ht]

theorem foreseen_put {env : Env V} {s : ManyState V} {id : Nat} {x : TAct V} (hid : s.acts[id]? = some x)
    {sf : StaticFn V} (hsf : s.statics[x.fn]? = some sf) (sf' : StaticFn V) (w' : World V) (held' : Option Nat)
    (act' : SAct V) : (s.put id x.fn sf' w' held' act').foreseen env id =
      some (if held' = some id then (act'.finish env sf' w').1 else Props.SAct.outcome env sf'.mi act') := by
  have hacts := ManyState.put_acts hid x.fn sf' w' held' act'
  have hstat := ManyState.put_statics hsf id sf' w' held' act'
  have hh : (s.put id x.fn sf' w' held' act').held x.fn = held' := by simp [ManyState.put]
  simp only [ManyState.foreseen, hacts, if_true, Option.map_some, hstat, hh]
  rfl

theorem safe_of {act : SAct V} (h : ∀ i, act.pc ≠ .sat i ∧ act.pc ≠ .satisfy i) (sf : StaticFn V) (q : Seqs) :
    act.Safe sf q := by
  intro i hi
  rcases hi with hi | hi
  · exact absurd hi (h i).1
  · exact absurd hi (h i).2

theorem step_pick {s0 : Sys V} {f : Nat} {sf : StaticFn V} (hf : s0.statics[f]? = some sf) (env : Env V) (act : SAct V)
    (hd : act.op ≠ .dropPanicking) (hp : sf.poison = false) :
    s0.step env (Props.seqOp f act) =
      ((SAct.finish env { act with pc := act.op.first } sf s0.world).1,
       Props.embed s0 f (SAct.finish env { act with pc := act.op.first } sf s0.world).2.1
        (SAct.finish env { act with pc := act.op.first } sf s0.world).2.2) := by
  have h := Props.seq_step env s0 f (List.getElem?_eq_some_iff.mp hf).1 act hd sf s0.world hp
  rw [Props.embed_self hf] at h
  exact h

/-- An operation that still has to join a sequence is a statement with `in_sequence` that is being executed. -/
theorem SAct.Fine.joining {x : TAct V} (h : x.act.Fine) {sid : Nat} (hj : x.act.Joins sid) :
    Spec.Many.Joining x sid ∧ x.finished = false := by
  obtain ⟨i, bs, e, hm⟩ := hj
  have hc := h.rest i bs e _ hm
  refine ⟨?_, by simp [TAct.finished, SAct.finished, e]⟩
  unfold Spec.Many.Joining
  generalize x.act.op = op at hc
  cases op with
  | expect k cs => exact ⟨k, cs, rfl, hc⟩
  | _ => simp [SOp.chain] at hc

/-- What an operation that has taken effect still has to join gets less. -/
theorem SAct.inner_joins (env : Env V) (act : SAct V) (sf : StaticFn V) (w : World V) (ht : act.pc.took = true)
    (hw : act.pc.working = true) {sid : Nat} (h : SAct.Joins { act with pc := (act.inner env sf w).1 } sid) :
    act.Joins sid := by
  obtain ⟨i, bs, e, hm⟩ := h
  obtain ⟨tid, op, pc⟩ := act
  cases pc <;> simp [SPc.took, SPc.working] at ht hw
  case ret j =>
    simp only [SAct.inner] at e
    split at e <;> simp at e
  case build j cs =>
    simp only [SAct.inner] at e
    split at e
    · simp at e
    · simp at e
    · split at e
      · simp at e
      · simp only [SPc.build.injEq] at e
        exact ⟨j, _, rfl, by rw [← e.2] at hm; simp [hm]⟩

theorem many_step {env : Env V} {s0 : Sys V} {s : ManyState V} {lin : List Nat} {outs : List (Obs V)} {σ : Sys V}
    (hx : Spec.Many.Exclusive s) (hb : ManyBase s) (h : ManyLin env s0 s lin outs σ) (id : Nat) :
    ManyNext env s0 (s.step env (.step id)) lin := by
  have hstay : s.step env (.step id) = s → ManyNext env s0 (s.step env (.step id)) lin := by
    intro e
    rw [e]
    exact ⟨hb, [], outs, σ, by simpa using h⟩
  rcases hid : s.acts[id]? with _ | x
  · exact hstay (by simp [ManyState.step, hid])
  have hmem := List.mem_of_getElem? hid
  have hfine := (hb.fine x hmem).2
  have hflt := (hb.fine x hmem).1
  have hsf : s.statics[x.fn]? = some s.statics[x.fn] := List.getElem?_eq_getElem hflt
  generalize s.statics[x.fn] = sf at hsf
  have hhold := hb.holder id x hid
  have hnone : x.act.step env id ⟨sf, s.world, s.held x.fn, s.acts.map TAct.act⟩ = none →
      ManyNext env s0 (s.step env (.step id)) lin := by
    intro hn
    exact hstay (by simp [ManyState.step, hid, ManyState.stepAct, hsf, hn])
  have hforeseen : s.foreseen env id =
      some (if s.held x.fn = some id then (x.act.finish env sf s.world).1 else Props.SAct.outcome env sf.mi x.act) := by
    simp only [ManyState.foreseen, hid, Option.map_some, hsf]
  -- steps with the mutex
  have hwork : x.act.pc.working = true → ManyNext env s0 (s.step env (.step id)) lin := by
    intro hw
    have hin : x.act.pc.inside = true := by
      generalize x.act.pc = pc at hw
      cases pc <;> first | rfl | simp [SPc.working] at hw
    have hheld := hhold.mp hin
    have hin' := SAct.inner_inside env x.act sf s.world hw
    have hfin := fun w => SAct.inner_finish env x.act sf w hw
    simp only at hfin
    have hsafe := hb.safe id x sf hid hsf
    have hput : s.step env (.step id) = s.put id x.fn (x.act.inner env sf s.world).2.1
        (x.act.inner env sf s.world).2.2 (some id) { x.act with pc := (x.act.inner env sf s.world).1 } := by
      refine stepAct_put hid hsf ?_
      generalize x.act = act at hw
      obtain ⟨tid, op, pc⟩ := act
      cases pc <;> simp only [SPc.working, Bool.false_eq_true] at hw <;> simp only [SAct.step, hheld]
    have hcase : HeldCase id (s.held x.fn) (some id) sf (x.act.inner env sf s.world).2.1 s.world
        (x.act.inner env sf s.world).2.2 := .inl ⟨.inl hheld, .inl rfl⟩
    have hfine' : SAct.Fine { x.act with pc := (x.act.inner env sf s.world).1 } := by
      refine ⟨hfine.op, ?_, ?_⟩
      · simp only
        generalize (x.act.inner env sf s.world).1 = pc at hin'
        cases pc <;> simp [SPc.inside, SPc.working] at hin' ⊢
      · intro i bs hpc
        have hrest := hfine.rest
        generalize x.act = act at hw hpc hrest
        obtain ⟨tid, op, pc⟩ := act
        cases pc with
        | push =>
          simp only [SAct.inner, SPc.build.injEq] at hpc
          rw [← hpc.2]
          exact fun _ h => h
        | build j cs =>
          simp only [SAct.inner] at hpc
          split at hpc
          · simp at hpc
          · simp at hpc
          · split at hpc
            · simp at hpc
            · simp only [SPc.build.injEq] at hpc
              rw [← hpc.2]
              intro b hb'
              exact hrest j _ rfl b (by simp [hb'])
        | _ =>
          simp only [SAct.inner] at hpc
          repeat' split at hpc
          all_goals first | (simp at hpc; done) | (split at hpc <;> simp at hpc)
    have hholding : s.holding x.fn = some x.act := by simp [ManyState.holding, hheld, hid]
    have hholding' : (s.put id x.fn (x.act.inner env sf s.world).2.1 (x.act.inner env sf s.world).2.2 (some id)
        { x.act with pc := (x.act.inner env sf s.world).1 }).holding x.fn =
          some { x.act with pc := (x.act.inner env sf s.world).1 } := by
      rw [holding_self hid hcase]; simp
    have hseqs := SAct.inner_seqs env x.act sf s.world hsafe
    have hpoison : (x.act.inner env sf s.world).2.1.poison = false := by
      rw [SAct.inner_poison]; exact hb.clean x.fn id sf hheld hsf
    rw [hput]
    have hbase : SAct.Safe { x.act with pc := (x.act.inner env sf s.world).1 } (x.act.inner env sf s.world).2.1
        (x.act.inner env sf s.world).2.2.seqs → ManyBase (s.put id x.fn (x.act.inner env sf s.world).2.1
          (x.act.inner env sf s.world).2.2 (some id) { x.act with pc := (x.act.inner env sf s.world).1 }) := fun hsafe' =>
      hb.put hid hsf hfine' (by simp [hin']) hcase (fun _ => hpoison)
        (SAct.inner_handles env x.act sf s.world) (fun sid => (SAct.inner_joined env x.act sf s.world sid).1) hsafe' hseqs
    have hexcl : ∀ sid, Spec.Many.Joining x sid → x.finished = false → ∀ (j : Nat) (y : TAct V), j ≠ id →
        s.acts[j]? = some y → ¬ y.act.Joins sid := by
      intro sid hxj hxf j y hji hj hyj
      have hy := (hb.fine y (List.mem_of_getElem? hj)).2.joining hyj
      exact hji (hx sid j id y x hj hid hy.2 hxf hy.1 hxj)
    have hnobuild : ∀ pc : SPc V, pc.took = false → ∀ i bs, pc ≠ .build i bs := by
      intro pc hpc i bs e
      subst e
      simp [SPc.took] at hpc
    rcases ht' : (x.act.inner env sf s.world).1.took with _ | _
    · -- not yet
      obtain ⟨ht, hwq, hsf'⟩ := SAct.inner_quiet env x.act sf s.world hw ht'
      refine ⟨hbase (by rw [hwq]; exact hsf' hsafe), [], outs, σ, ?_⟩
      rw [List.append_nil]
      refine h.step hb hid hsf (SAct.inner_mi _ _ _ _) rfl rfl hcase (by simp [ht', ht]) (by rw [hwq]; exact .refl _)
        (.none (hnobuild _ ht) (hnobuild _ ht') fun _ => by rw [hwq]) ?_ ?_
      · intro σf hσ
        rw [hholding, shadow_pending ht] at hσ
        rw [hholding', shadow_pending ht']
        refine ⟨hσ.1, fun w hsw => ?_⟩
        obtain ⟨hs1, hs2⟩ := SAct.inner_quiet_at env x.act sf s.world w hw ht' hsw
        have h1 := hσ.2 w hs1
        have h2 := hfin w
        rw [hs2] at h2
        exact h1.trans h2.symm
      · intro htt
        rw [ht] at htt
        simp at htt
    · rcases ht : x.act.pc.took with _ | _
      · -- the operation takes effect
        obtain ⟨σf, hσf, hσ⟩ := h.shadow x.fn sf hsf
        rw [hholding, shadow_pending ht] at hσ
        have hnsafe : ∀ q, SAct.Safe { x.act with pc := (x.act.inner env sf s.world).1 }
            (x.act.inner env sf s.world).2.1 q := fun q => safe_of (fun i => by
          simp only
          generalize (x.act.inner env sf s.world).1 = pc at ht'
          cases pc <;> simp [SPc.took] at ht' ⊢) _ _
        have hstep := step_pick hσf env x.act hfine.op hσ.1
        have hsafeσ : x.act.Safe sf σ.world.seqs := fun i hi e he a ha => by
          rw [h.alike.level]
          exact hsafe i hi e he a ha
        rw [hσ.2 σ.world hsafeσ] at hstep
        have hal := SAct.inner_alike env x.act sf ht hw h.alike
        have hf1 := hfin σ.world
        rw [hal.1, hal.2.1] at hf1
        rw [← hf1] at hstep
        have hxj : ∀ sid, ¬ x.act.Joins sid := not_joins (hnobuild _ ht)
        have hjw := fun w sid => (SAct.inner_joined env x.act sf w sid).2 (hxj sid)
        have hunf : x.finished = false := by
          simp only [TAct.finished, SAct.finished]
          generalize x.act.pc = pc at ht
          cases pc <;> first | rfl | simp [SPc.took] at ht
        have hex : ∀ sid, SAct.Joins { x.act with pc := (x.act.inner env sf s.world).1 } sid →
            ∀ (j : Nat) (y : TAct V), j ≠ id → s.acts[j]? = some y → ¬ y.act.Joins sid := by
          intro sid hs
          exact hexcl sid (SAct.Fine.joining (x := ⟨x.fn, { x.act with pc := (x.act.inner env sf s.world).1 }⟩) hfine' hs).1
            hunf
        have hjeq : ∀ sid, SAct.Joins { x.act with pc := (x.act.inner env sf s.world).1 } sid →
            (x.act.inner env sf σ.world).2.2.joined sid = (x.act.inner env sf s.world).2.2.joined sid := by
          intro sid hs
          rw [hjw, hjw]
          refine h.same sid fun j y hj => ?_
          by_cases hji : j = id
          · subst hji
            rw [hid] at hj
            cases hj
            exact hxj sid
          · exact hex sid hs j y hji hj
        have htk := SAct.finish_took env { x.act with pc := (x.act.inner env sf s.world).1 }
          (x.act.inner env sf s.world).2.1 ht' hin' _ _ hjeq
        refine ⟨hbase (hnsafe _), [id], _, _, h.take hb hid hsf
          (act' := { x.act with pc := (x.act.inner env sf s.world).1 }) (SAct.inner_mi _ _ _ _) rfl rfl hcase ht ht' hstep
          ?_ (hjw _) ?_ ?_ ?_ ?_⟩
        · exact htk.2.2.1.trans hal.2.2
        · intro sid hs
          rw [htk.2.2.2.1 sid hs, hjw]
        · exact fun sid hs => ⟨htk.2.2.2.2 sid (hjeq sid hs), hex sid hs⟩
        · rw [hholding', shadow_took ht']
          exact htk.2.1
        · rw [foreseen_put hid hsf, if_pos rfl]
          congr 1
          exact htk.1.symm
      · -- it has taken effect before
        have htk := SAct.finish_took env x.act sf ht hin s.world s.world fun _ _ => rfl
        have htk' := SAct.finish_took env { x.act with pc := (x.act.inner env sf s.world).1 }
          (x.act.inner env sf s.world).2.1 ht' hin' (x.act.inner env sf s.world).2.2 (x.act.inner env sf s.world).2.2
          fun _ _ => rfl
        have hnsafe : ∀ q, SAct.Safe { x.act with pc := (x.act.inner env sf s.world).1 }
            (x.act.inner env sf s.world).2.1 q := fun q => safe_of (fun i => by
          simp only
          generalize (x.act.inner env sf s.world).1 = pc at ht'
          cases pc <;> simp [SPc.took] at ht' ⊢) _ _
        refine ⟨hbase (hnsafe _), [], outs, σ, ?_⟩
        rw [List.append_nil]
        refine h.step hb hid hsf (SAct.inner_mi _ _ _ _) rfl rfl hcase (by simp [ht', ht]) ?_ ?_ ?_ ?_
        · have h1 := htk.2.2.1
          rw [← hfin s.world] at h1
          exact h1.symm.trans htk'.2.2.1
        · refine ⟨fun sid => (SAct.inner_joined env x.act sf s.world sid).2,
            fun sid => SAct.inner_joins env x.act sf s.world ht hw, fun sid _ => by rw [hfin], fun sid _ hn => ?_,
            fun sid hs => hexcl sid (hfine.joining hs).1 (hfine.joining hs).2⟩
          rw [← hfin s.world]
          exact (htk'.2.2.2.1 sid hn).symm
        · intro σf hσ
          rw [hholding, shadow_took ht] at hσ
          rw [hholding', shadow_took ht', hσ, ← hfin s.world]
        · intro _
          rw [foreseen_put hid hsf, if_pos rfl, hforeseen, if_pos hheld, hfin]
  -- steps after the mutex was released
  have hout : x.act.pc.took = true → x.act.pc.inside = false → ∀ pc' : SPc V,
      x.act.step env id ⟨sf, s.world, s.held x.fn, s.acts.map TAct.act⟩ =
        some ⟨sf, s.world, s.held x.fn, (s.acts.map TAct.act).set id { x.act with pc := pc' }⟩ →
      (pc' ≠ .clear ∧ pc' ≠ .tryWait) → (∀ i bs, pc' ≠ .build i bs) → pc'.took = true → pc'.inside = false →
      Props.SAct.outcome env sf.mi { x.act with pc := pc' } = Props.SAct.outcome env sf.mi x.act →
      ManyNext env s0 (s.step env (.step id)) lin := by
    intro ht hin pc' hs hpc hnb ht' hin' ho
    have hheld : s.held x.fn ≠ some id := by
      intro e
      have := hhold.mpr e
      rw [hin] at this
      simp at this
    have hcase : HeldCase id (s.held x.fn) (s.held x.fn) sf sf s.world s.world := .inr ⟨hheld, rfl, rfl, rfl⟩
    rw [stepAct_put hid hsf hs]
    refine ⟨?_, [], outs, σ, ?_⟩
    · refine hb.put hid hsf ⟨hfine.op, hpc, fun i bs e => absurd e (hnb i bs)⟩ ?_ hcase
        (fun e => absurd e hheld) (fun _ a => .inl a) (fun _ => Nat.le_refl _) ?_ (.inl fun _ => rfl)
      · simp [hin', hheld]
      · apply safe_of
        intro i
        simp only
        cases pc' <;> simp [SPc.took] at ht' ⊢
    · rw [List.append_nil]
      refine h.step hb hid hsf rfl rfl rfl hcase (by simp [ht', ht]) (.refl _)
        (.none (fun i bs e => by rw [e] at hin; simp [SPc.inside, SPc.working] at hin) hnb fun _ => rfl) ?_ ?_
      · intro σf hσ
        rw [holding_self hid hcase, if_neg hheld]
        split
        · rename_i hn
          simpa [ManyState.holding, hn] using hσ
        · exact hσ
      · intro _
        rw [foreseen_put hid hsf, if_neg hheld, hforeseen, if_neg hheld, ho]
  -- releasing the mutex
  have hrel : x.act.pc.took = true → x.act.pc.inside = true → ∀ (sf' : StaticFn V) (w' : World V) (pc' : SPc V),
      x.act.step env id ⟨sf, s.world, s.held x.fn, s.acts.map TAct.act⟩ =
        some ⟨sf', w', none, (s.acts.map TAct.act).set id { x.act with pc := pc' }⟩ →
      (pc' ≠ .clear ∧ pc' ≠ .tryWait) → (∀ i bs, pc' ≠ .build i bs) → pc'.took = true → pc'.inside = false →
      sf'.mi = sf.mi → sf'.store = sf.store → s.world.Alike w' → (∀ sid, w'.joined sid = s.world.joined sid) →
      (∀ i bs, x.act.pc ≠ .build i bs) →
      (x.act.finish env sf s.world).2.1 = sf' →
      Props.SAct.outcome env sf'.mi { x.act with pc := pc' } = (x.act.finish env sf s.world).1 →
      ManyNext env s0 (s.step env (.step id)) lin := by
    intro ht hin sf' w' pc' hs hpc hnb ht' hin' hmi hst hal hjw hnb0 hfs ho
    have hheld := hhold.mp hin
    have hcase : HeldCase id (s.held x.fn) none sf sf' s.world w' := .inl ⟨.inl hheld, .inr rfl⟩
    have hholding : s.holding x.fn = some x.act := by simp [ManyState.holding, hheld, hid]
    rw [stepAct_put hid hsf hs]
    refine ⟨?_, [], outs, σ, ?_⟩
    · refine hb.put hid hsf ⟨hfine.op, hpc, fun i bs e => absurd e (hnb i bs)⟩ ?_ hcase
        (fun e => by simp at e) (fun a ha => .inl ?_) (fun sid => Nat.le_of_eq (hjw sid).symm) ?_ (.inl hal.symm.level)
      · simp [hin']
      · simpa [StaticFn.Handles, hst] using ha
      · apply safe_of
        intro i
        simp only
        cases pc' <;> simp [SPc.took] at ht' ⊢
    · rw [List.append_nil]
      refine h.step hb hid hsf hmi rfl rfl hcase (by simp [ht', ht]) hal (.none hnb0 hnb hjw) ?_ ?_
      · intro σf hσ
        rw [hholding, shadow_took ht] at hσ
        rw [holding_self hid hcase, if_neg (by simp), if_pos rfl]
        simp only [Shadow]
        rw [hσ, hfs]
      · intro _
        rw [foreseen_put hid hsf, if_neg (by simp), hforeseen, if_pos hheld, ho]
  obtain ⟨fn, tid, op, pc⟩ := x
  simp only at *
  cases pc with
  | clear => exact absurd rfl hfine.pc.1
  | tryWait => exact absurd rfl hfine.pc.2
  | wait =>
    rcases hheld : s.held fn with _ | j
    · have hholding : s.holding fn = none := by simp [ManyState.holding, hheld]
      obtain ⟨σf, hσf, hσ⟩ := h.shadow fn sf hsf
      rw [hholding] at hσ
      simp only [Shadow] at hσ
      subst hσ
      by_cases hp : σf.poison = true
      · have hs : SAct.step env id ⟨tid, op, .wait⟩ ⟨σf, s.world, s.held fn, s.acts.map TAct.act⟩ =
            some ⟨σf, s.world, none, (s.acts.map TAct.act).set id ⟨tid, op, .done op.poisoned⟩⟩ := by
          simp [SAct.step, hheld, hp]
        have hcase : HeldCase id (s.held fn) none σf σf s.world s.world := .inl ⟨.inr hheld, .inr rfl⟩
        rw [stepAct_put hid hsf hs]
        have hpo := Props.seq_poisoned env σ fn (List.getElem?_eq_some_iff.mp hσf).1 ⟨tid, op, .wait⟩ hfine.op σf σ.world hp
        rw [Props.embed_self hσf] at hpo
        rw [← Props.embed_self hσf] at hpo
        rw [Props.embed_self hσf] at hpo
        refine ⟨?_, [id], outs ++ [op.poisoned], Props.embed σ fn σf σ.world, ?_⟩
        · refine hb.put hid hsf ⟨hfine.op, by simp, by simp⟩ ?_ hcase
            (fun e => by simp at e) (fun _ a => .inl a) (fun _ => Nat.le_refl _) ?_ (.inl fun _ => rfl)
          · simp [SPc.inside, SPc.working]
          · exact safe_of (by simp) _ _
        · refine h.take hb hid hsf (act' := ⟨tid, op, .done op.poisoned⟩) rfl rfl rfl hcase rfl rfl (o := op.poisoned) (σf := σf) (u := σ.world) ?_ h.alike
            (fun _ => rfl) (fun _ _ => rfl) (fun sid hs => absurd hs (not_joins (by simp) sid)) ?_ ?_
          · rw [Props.embed_self hσf]; exact hpo
          · rw [holding_self hid hcase, if_neg (by simp), if_pos rfl]
            rfl
          · rw [foreseen_put hid hsf]
            simp [Props.SAct.outcome]
      · have hp : σf.poison = false := by simpa using hp
        have hs : SAct.step env id ⟨tid, op, .wait⟩ ⟨σf, s.world, s.held fn, s.acts.map TAct.act⟩ =
            some ⟨σf, s.world, some id, (s.acts.map TAct.act).set id ⟨tid, op, op.first⟩⟩ := by
          simp [SAct.step, hheld, hp]
        have hcase : HeldCase id (s.held fn) (some id) σf σf s.world s.world := .inl ⟨.inr hheld, .inl rfl⟩
        have hfirst : op.first.inside = true ∧ op.first.took = false ∧ (op.first ≠ .clear ∧ op.first ≠ .tryWait) ∧
            (∀ i bs, op.first ≠ .build i bs) ∧ ∀ i, op.first ≠ .sat i ∧ op.first ≠ .satisfy i := by
          cases op <;> simp [SOp.first, SPc.inside, SPc.working, SPc.took]
        rw [stepAct_put hid hsf hs]
        refine ⟨?_, [], outs, σ, ?_⟩
        · refine hb.put hid hsf ⟨hfine.op, hfirst.2.2.1, fun i bs e => absurd e (hfirst.2.2.2.1 i bs)⟩ ?_
            hcase (fun _ => hp) (fun _ a => .inl a) (fun _ => Nat.le_refl _) (safe_of hfirst.2.2.2.2 _ _) (.inl fun _ => rfl)
          simp [hfirst.1]
        · rw [List.append_nil]
          refine h.step hb hid hsf rfl rfl rfl hcase hfirst.2.1 (.refl _)
            (.none (by simp) hfirst.2.2.2.1 fun _ => rfl) ?_ ?_
          · intro σg hσ
            rw [hholding] at hσ
            simp only [Shadow] at hσ
            subst hσ
            rw [holding_self hid hcase, if_pos rfl, shadow_pending hfirst.2.1]
            exact ⟨hp, fun w _ => rfl⟩
          · intro e; simp [SPc.took] at e
    · exact hnone (by simp [SAct.step, hheld])
  | scan i => exact hwork rfl
  | check i => exact hwork rfl
  | inc i => exact hwork rfl
  | verify i => exact hwork rfl
  | sat i => exact hwork rfl
  | satisfy i => exact hwork rfl
  | ret i => exact hwork rfl
  | push => exact hwork rfl
  | build i bs => exact hwork rfl
  | drain => exact hwork rfl
  | leave r =>
    exact hrel rfl rfl { sf with poison := panicked r } s.world (.answer r) rfl ⟨by simp, by simp⟩ (by simp) rfl rfl rfl rfl
      (.refl _) (fun _ => rfl) (by simp) rfl rfl
  | leaveExpect i r =>
    exact hrel rfl rfl { sf with poison := panicked r } { s.world with made := s.world.made ++
        [(((sf.store.vec op.key)[i]?).map (·.chain)).getD []] } (.done (.unit r false)) rfl ⟨by simp, by simp⟩ (by simp)
      rfl rfl rfl rfl ⟨fun _ => rfl, rfl, rfl⟩ (fun _ => rfl) (by simp) rfl rfl
  | leaveDrain es =>
    exact hrel rfl rfl sf s.world (.dropping none es) rfl ⟨by simp, by simp⟩ (by simp) rfl rfl rfl rfl (.refl _)
      (fun _ => rfl) (by simp) rfl rfl
  | answer r => exact hout rfl rfl _ rfl ⟨by simp, by simp⟩ (by simp) rfl rfl rfl
  | done o => exact hnone rfl
  | dropping p es =>
    have hpan : op.panicking = false := by
      have := hfine.op
      cases op <;> first | rfl | exact absurd rfl this
    cases es with
    | nil =>
      refine hout rfl rfl _ rfl ⟨by simp, by simp⟩ (by simp) rfl rfl ?_
      cases p <;> rfl
    | cons e es =>
      cases p with
      | none =>
        rcases hd : e.drop false sf.mi.base with q | _
        · refine hout rfl rfl (.dropping (some q) es) (by simp [SAct.step, hpan, hd]) ⟨by simp, by simp⟩ (by simp) rfl rfl ?_
          simp [Props.SAct.outcome, dropAll, hd, hpan, dropAll_panicking]
        · refine hout rfl rfl (.dropping none es) (by simp [SAct.step, hpan, hd]) ⟨by simp, by simp⟩ (by simp) rfl rfl ?_
          simp [Props.SAct.outcome, dropAll, hd, hpan]
      | some q =>
        have hd : e.drop true sf.mi.base = .ok () := by simp [Expectation.drop, Common.drop]
        exact hout rfl rfl (.dropping (some q) es) (by simp [SAct.step, hpan, hd]) ⟨by simp, by simp⟩ (by simp) rfl rfl rfl

theorem many_start {env : Env V} {s0 : Sys V} {s : ManyState V} {lin : List Nat} {outs : List (Obs V)} {σ : Sys V}
    (hb : ManyBase s) (h : ManyLin env s0 s lin outs σ) (tid f : Nat) (op : SOp V) (hf : f < s.statics.length)
    (hop : op ≠ .dropPanicking) :
    ManyNext env s0 { s with acts := s.acts ++ [⟨f, ⟨tid, op, .wait⟩⟩] } lin := by
  have hget : ∀ j, j < s.acts.length → (s.acts ++ [(⟨f, ⟨tid, op, .wait⟩⟩ : TAct V)])[j]? = s.acts[j]? := fun j hj =>
    List.getElem?_append_left hj
  have hcase : ∀ (j : Nat) (a : TAct V), (s.acts ++ [⟨f, ⟨tid, op, .wait⟩⟩])[j]? = some a →
      s.acts[j]? = some a ∨ (j = s.acts.length ∧ a = ⟨f, ⟨tid, op, .wait⟩⟩) := by
    intro j a hj
    rcases Nat.lt_trichotomy j s.acts.length with hlt | heq | hgt
    · rw [hget j hlt] at hj; exact .inl hj
    · subst heq
      rw [List.getElem?_append_right (Nat.le_refl _)] at hj
      simp at hj
      exact .inr ⟨rfl, hj.symm⟩
    · rw [List.getElem?_eq_none (by simp; omega)] at hj
      simp at hj
  have hheld : ∀ g j, s.held g = some j → j < s.acts.length := by
    intro g j hj
    obtain ⟨x, hx, _⟩ := hb.held g j hj
    exact (List.getElem?_eq_some_iff.mp hx).1
  refine ⟨⟨?_, ?_, ?_, hb.clean, ?_, hb.apart, hb.bound⟩, [], outs, σ, ?_⟩
  · intro x hx
    rcases List.mem_append.mp hx with hx | hx
    · exact hb.fine x hx
    · simp at hx
      subst hx
      exact ⟨hf, hop, by simp, by simp⟩
  · intro j a hj
    rcases hcase j a hj with hj | ⟨rfl, rfl⟩
    · exact hb.holder j a hj
    · constructor
      · intro hin; simp [SPc.inside, SPc.working] at hin
      · intro hh; exact absurd (hheld _ _ hh) (Nat.lt_irrefl _)
  · intro g j hj
    obtain ⟨x, hx, hxf⟩ := hb.held g j hj
    exact ⟨x, by simp only; rw [hget j (hheld g j hj)]; exact hx, hxf⟩
  · intro j a sf hj hs
    rcases hcase j a hj with hj | ⟨rfl, rfl⟩
    · exact hb.safe j a sf hj hs
    · exact safe_of (by simp) _ _
  · rw [List.append_nil]
    have hprog : ManyState.program { s with acts := s.acts ++ [⟨f, ⟨tid, op, .wait⟩⟩] } lin = s.program lin := by
      unfold ManyState.program
      apply Props.filterMap_agree
      intro j hj
      simp only [hget j (h.range j hj)]
    refine ⟨by rw [hprog]; exact h.run, h.nodup, ?_, ?_, h.objs, h.len, h.alike, ?_, ?_, ?_, ?_⟩
    · intro j hj
      have := h.range j hj
      simp
      omega
    · intro j a hj
      rcases hcase j a hj with hj | ⟨rfl, rfl⟩
      · exact h.took j a hj
      · simp only [SPc.took, Bool.false_eq_true, iff_false]
        intro hj
        exact Nat.lt_irrefl _ (h.range _ hj)
    · intro sid hno
      refine h.same sid fun j y hj => hno j y ?_
      have := (List.getElem?_eq_some_iff.mp hj).1
      simp only [hget j this]
      exact hj
    · intro j a sf sid hj hs ha
      rcases hcase j a hj with hj | ⟨rfl, rfl⟩
      · exact h.ahead j a sf sid hj hs ha
      · exact absurd ha (not_joins (by simp) sid)
    · intro g sg hg
      have : ManyState.holding { s with acts := s.acts ++ [⟨f, ⟨tid, op, .wait⟩⟩] } g = s.holding g := by
        simp only [ManyState.holding]
        rcases hh : s.held g with _ | j
        · rfl
        · simp only [Option.bind_some]
          rw [hget j (hheld g j hh)]
      rw [this]
      exact h.shadow g sg hg
    · rw [h.obs]
      apply List.map_congr_left
      intro j hj
      simp only [ManyState.foreseen, hget j (h.range j hj)]

theorem many_next {env : Env V} {s0 : Sys V} {s : ManyState V} {lin : List Nat} {outs : List (Obs V)} {σ : Sys V}
    (hx : Spec.Many.Exclusive s) (hb : ManyBase s) (h : ManyLin env s0 s lin outs σ) {a : ManySched V} (ha : Spec.Many.Allowed a) :
    ManyNext env s0 (s.step env a) lin := by
  cases a with
  | step id => exact many_step hx hb h id
  | start tid f op =>
    simp only [ManyState.step]
    split
    · rename_i hc
      simp only [Bool.and_eq_true, decide_eq_true_eq] at hc
      have hst : op.start = .wait ∧ op ≠ .dropPanicking := by
        cases op with
        | dropPanicking => exact absurd ha id
        | _ => exact ⟨rfl, by simp⟩
      rw [hst.1]
      exact many_start hb h tid f op hc.1 hst.2
    · exact ⟨hb, [], outs, σ, by simpa using h⟩

/-- The invariants hold after any schedule, and the order after a part of it is a part of the order. -/
theorem many_run {env : Env V} {s0 : Sys V} (sch : List (ManySched V)) (hsch : ∀ a ∈ sch, Spec.Many.Allowed a)
    {s : ManyState V} (hx : ∀ pre post, sch = pre ++ post → Spec.Many.Exclusive (s.run env pre))
    (hb : ManyBase s) {σ : Sys V} (h : ManyLin env s0 s [] [] σ) :
    ManyBase (s.run env sch) ∧ ∃ lin outs σ, ManyLin env s0 (s.run env sch) lin outs σ ∧
      ∀ pre post, sch = pre ++ post → ∃ lin1 ext outs1 σ1, lin = lin1 ++ ext ∧
        ManyLin env s0 (s.run env pre) lin1 outs1 σ1 := by
  induction sch using snoc_induct with
  | nil =>
    refine ⟨hb, [], [], σ, h, ?_⟩
    intro pre post hp
    have : pre = [] := (List.append_eq_nil_iff.mp hp.symm).1
    subst this
    exact ⟨[], [], [], σ, rfl, h⟩
  | snoc sch a ih =>
    obtain ⟨hb', lin, outs, σ', h', hpre⟩ := ih (fun a ha => hsch a (by simp [ha]))
      fun pre post hp => hx pre (post ++ [a]) (by rw [hp]; simp)
    have hrun : s.run env (sch ++ [a]) = (s.run env sch).step env a := by simp [ManyState.run]
    obtain ⟨hb'', ext, outs'', σ'', h''⟩ := many_next (hx sch [a] rfl) hb' h' (hsch a (by simp))
    rw [hrun]
    refine ⟨hb'', lin ++ ext, outs'', σ'', h'', ?_⟩
    intro pre post hp
    rcases List.eq_nil_or_concat post with rfl | ⟨post', b, rfl⟩
    · rw [List.append_nil] at hp
      subst hp
      exact ⟨lin ++ ext, [], outs'', σ'', by simp, by rw [hrun]; exact h''⟩
    · rw [List.concat_eq_append, ← List.append_assoc] at hp
      have hsp : sch = pre ++ post' := (List.append_inj' hp rfl).1
      obtain ⟨lin1, ext1, outs1, σ1, hl, hl1⟩ := hpre pre post' hsp
      exact ⟨lin1, ext1 ++ ext, outs1, σ1, by rw [hl, List.append_assoc], hl1⟩

theorem flatMap_apart {α β : Type} {g : α → List β} {k : β → Nat} {l : List α} (h : ((l.flatMap g).map k).Nodup)
    {i j : Nat} {a b : α} (ha : l[i]? = some a) (hb : l[j]? = some b) {x y : β} (hx : x ∈ g a) (hy : y ∈ g b)
    (hxy : k x = k y) : i = j := by
  have aux : ∀ (i j : Nat) (a b : α) (x y : β), l[i]? = some a → l[j]? = some b → x ∈ g a → y ∈ g b → k x = k y →
      ¬ i < j := by
    intro i j a b x y ha hb hx hy hxy hij
    have hl : l = l.take j ++ l.drop j := (List.take_append_drop j l).symm
    rw [hl, List.flatMap_append, List.map_append, List.nodup_append] at h
    refine h.2.2 (k x) ?_ (k y) ?_ hxy
    · refine List.mem_map.mpr ⟨x, List.mem_flatMap.mpr ⟨a, ?_, hx⟩, rfl⟩
      apply List.mem_of_getElem? (i := i)
      rw [List.getElem?_take, if_pos hij]
      exact ha
    · refine List.mem_map.mpr ⟨y, List.mem_flatMap.mpr ⟨b, ?_, hy⟩, rfl⟩
      apply List.mem_of_getElem? (i := 0)
      rw [List.getElem?_drop]
      simpa using hb
  have h1 := aux i j a b x y ha hb hx hy hxy
  have h2 := aux j i b a y x hb ha hy hx hxy.symm
  omega

theorem Store.vec_all {s : Store V} {k : Key} {e : Expectation V} (h : e ∈ s.vec k) : e ∈ s.all := by
  cases s with
  | concrete es => exact h
  | generic m =>
    simp only [Store.vec] at h
    simp only [Store.all]
    simp only [GMap.get] at h
    rcases hf : m.find? (fun p => p.1 == k) with _ | p
    · simp [hf] at h
    · simp only [hf, Option.map_some, Option.getD_some] at h
      exact List.mem_flatMap.mpr ⟨p, List.mem_of_find?_eq_some hf, h⟩

/-- In a program that has run so far, expectations of different static methods have different places. -/
theorem reach_apart (env : Env V) (sts : List (MethodInfo V)) (ops : List (Op V)) (f f' : Nat) (sf sf' : StaticFn V)
    (h : SeqHandle) (hf : (Sys.run env ops (Sys.init sts)).2.statics[f]? = some sf)
    (hf' : (Sys.run env ops (Sys.init sts)).2.statics[f']? = some sf') (hh : sf.Handles h) (hh' : sf'.Handles h) :
    f = f' := by
  have hq := seqInv_run env sts ops
  have hi := sysInv_run env sts ops
  generalize (Sys.run env ops (Sys.init sts)).2 = s at *
  obtain ⟨k, e, he, hes⟩ := hh
  obtain ⟨k', e', he', hes'⟩ := hh'
  have hall : ∀ (g : Nat) (sg : StaticFn V) (y : Expectation V) (k : Key), s.statics[g]? = some sg →
      y ∈ sg.store.vec k → y ∈ s.all := by
    intro g sg y k hg hy
    simp only [Sys.all, List.mem_append]
    exact .inr (List.mem_flatMap.mpr ⟨sg, List.mem_of_getElem? hg, Store.vec_all hy⟩)
  have h1 := hq.handle e (hall f sf e k hf he) h hes
  have h2 := hq.handle e' (hall f' sf' e' k' hf' he') h hes'
  have hg := slot_inj h1 h2
  have hnd := hi.nodup
  simp only [Sys.all, List.map_append] at hnd
  have hnd := (List.nodup_append.mp hnd).2.1
  exact flatMap_apart hnd hf hf' (Store.vec_all he) (Store.vec_all he') hg

/-- In a program that has run so far, places in a sequence are numbers below that of the expectations in it. -/
theorem reach_bound (env : Env V) (sts : List (MethodInfo V)) (ops : List (Op V)) (f : Nat) (sf : StaticFn V)
    (h : SeqHandle) (hf : (Sys.run env ops (Sys.init sts)).2.statics[f]? = some sf) (hh : sf.Handles h) :
    h.seq < (Sys.run env ops (Sys.init sts)).2.world.joined h.sid := by
  have hq := seqInv_run env sts ops
  generalize (Sys.run env ops (Sys.init sts)).2 = s at *
  obtain ⟨k, e, he, hes⟩ := hh
  have hall : e ∈ s.all := by
    simp only [Sys.all, List.mem_append]
    exact .inr (List.mem_flatMap.mpr ⟨sf, List.mem_of_getElem? hf, Store.vec_all he⟩)
  obtain ⟨c, hc, _, hp⟩ := slot_some (hq.handle e hall h hes)
  have hlt := (List.getElem?_eq_some_iff.mp hc).1
  have hle := joinCount_take_le h.sid s.world.made (e.gid + 1) s.world.made.length (by omega)
  rw [List.take_length, ← hq.next h.sid] at hle
  simp only [World.joined]
  omega

theorem many_init (env : Env V) (sts : List (MethodInfo V)) (ops : List (Op V)) :
    ManyBase (ManyState.rest (Sys.run env ops (Sys.init sts)).2) ∧
    ManyLin env (Sys.run env ops (Sys.init sts)).2 (ManyState.rest (Sys.run env ops (Sys.init sts)).2) [] []
      (Sys.run env ops (Sys.init sts)).2 := by
  have hap := reach_apart env sts ops
  have hbd := reach_bound env sts ops
  generalize (Sys.run env ops (Sys.init sts)).2 = s at *
  refine ⟨⟨by simp [ManyState.rest], by simp [ManyState.rest], by simp [ManyState.rest], by simp [ManyState.rest],
    by simp [ManyState.rest], hap, hbd⟩, ⟨rfl, by simp, by simp, by simp [ManyState.rest], rfl, rfl, .refl _,
    fun _ _ => rfl, by simp [ManyState.rest], ?_, rfl⟩⟩
  intro f sf hf
  exact ⟨sf, hf, rfl⟩

end Mockall
