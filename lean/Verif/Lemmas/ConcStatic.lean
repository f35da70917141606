import Verif.Conc.Static
import Verif.Lemmas.Target
import Verif.Lemmas.Drop

/-! # The rest of an operation on a static method, in one go -/

namespace Mockall

variable {V : Type}

theorem GMap.put_put (m : GMap V) (k : Key) (a b : List (Expectation V)) :
    GMap.put (GMap.put m k a) k b = GMap.put m k b := by
  induction m with
  | nil => simp [GMap.put]
  | cons p m ih =>
    simp only [GMap.put]
    split
    · rename_i h; simp [GMap.put]
    · rename_i h; simp [GMap.put, h, ih]

theorem Store.setVec_self (k : Key) (s : Store V) : s.setVec k (s.vec k) = s := by
  cases s with
  | concrete es => rfl
  | generic m =>
    simp only [Store.setVec, Store.vec]
    rcases h : GMap.get m k with _ | es
    · rfl
    · simp [GMap.put_get h]

theorem Store.vec_setVec {k : Key} {s : Store V} {i : Nat} {e : Expectation V} (h : (s.vec k)[i]? = some e)
    (es : List (Expectation V)) : (s.setVec k es).vec k = es := by
  cases s with
  | concrete _ => rfl
  | generic m =>
    simp only [Store.setVec, Store.vec] at h ⊢
    rcases hg : GMap.get m k with _ | es'
    · simp [hg] at h
    · simp [GMap.get_put_same]

theorem Store.setVec_setVec {k : Key} {s : Store V} (a b : List (Expectation V)) :
    (s.setVec k a).setVec k b = s.setVec k b := by
  cases s with
  | concrete _ => rfl
  | generic m =>
    simp only [Store.setVec]
    rcases hg : GMap.get m k with _ | es'
    · simp [hg]
    · simp [GMap.get_put_same, GMap.put_put]

theorem Store.vec_push (k : Key) (s : Store V) (e : Expectation V) : (s.push k e).vec k = s.vec k ++ [e] := by
  cases s with
  | concrete _ => rfl
  | generic m => simp [Store.push, Store.vec, GMap.get_put_same]

theorem Store.push_setVec (k : Key) (s : Store V) (e e' : Expectation V) :
    (s.push k e).setVec k (s.vec k ++ [e']) = s.push k e' := by
  cases s with
  | concrete _ => rfl
  | generic m => simp [Store.push, Store.setVec, Store.vec, GMap.get_put_same, GMap.put_put]

theorem Store.call_vec (cx : Cx V) (mi : MethodInfo V) (k : Key) (args : List V) (s : Store V) (w : World V) :
    s.call cx mi k args w =
      let o := callScan cx (mi.fn k) args (s.vec k).length (s.vec k) w
      (o.1, s.setVec k o.2.1, o.2.2) := by
  cases s with
  | concrete es => rfl
  | generic m =>
    simp only [Store.call, Store.vec, Store.setVec]
    rcases hg : GMap.get m k with _ | es
    · simp [callScan]
    · rfl

theorem Store.expect_vec (nightly : Bool) (mi : MethodInfo V) (k : Key) (bs : List (Build V)) (s : Store V) (w : World V) :
    s.expect nightly mi k bs w =
      let o := Expectation.builds bs (Expectation.new nightly (mi.fn k) w.fresh) w.seqs
      (o.1, s.push k o.2.1, { w with seqs := o.2.2, fresh := w.fresh + 1, made := w.made ++ [o.2.1.chain] }) := by
  cases s <;> rfl

/-- The rest of a call that holds the mutex: the result of the call on the guard. -/
def SAct.rest (env : Env V) (act : SAct V) (sf : StaticFn V) (w : World V) :
    Except Panic (Option V) × StaticFn V × World V :=
  let k := act.op.key
  let args := act.op.args
  let cx := env.cx act.tid
  let info := sf.mi.fn k
  let es := sf.store.vec k
  let put (i : Nat) (e : Expectation V) : StaticFn V := { sf with store := sf.store.setVec k (es.set i e) }
  let ret (i : Nat) (e : Expectation V) (w : World V) : Except Panic (Option V) × StaticFn V × World V :=
    let o := e.ret_call cx info args w
    (o.1.map some, put i o.2.1, o.2.2)
  let satisfy (i : Nat) (e : Expectation V) (w : World V) : Except Panic (Option V) × StaticFn V × World V :=
    match e.common.satisfySequence w.seqs with
    | (.error p, q) => (.error p, sf, { w with seqs := q }.hit cx e.gid args false)
    | (.ok (), q) => ret i e ({ w with seqs := q }.hit cx e.gid args true)
  let sat (i : Nat) (e : Expectation V) (w : World V) : Except Panic (Option V) × StaticFn V × World V :=
    if e.common.times.isSatisfied ≠ .tooFew then satisfy i e w else ret i e (w.hit cx e.gid args true)
  let scan (i : Nat) : Except Panic (Option V) × StaticFn V × World V :=
    let o := callScan cx info args es.length (es.drop i) w
    (o.1, { sf with store := sf.store.setVec k (es.take i ++ o.2.1) }, o.2.2)
  let call (i : Nat) (e : Expectation V) : Except Panic (Option V) × StaticFn V × World V :=
    let o := e.call cx info args w
    (o.1.map some, put i o.2.1, o.2.2)
  let at_ (i : Nat) (f : Expectation V → Except Panic (Option V) × StaticFn V × World V) :
      Except Panic (Option V) × StaticFn V × World V :=
    match es[i]? with
    | none => (.ok none, sf, w)
    | some e => f e
  match act.pc with
  | .scan i => scan i
  | .check i => at_ i fun e =>
    match e.isDone with
    | .error p => (.error p, sf, w)
    | .ok d => if !d || es.length == 1 then call i e else scan (i + 1)
  | .inc i => at_ i (call i)
  | .verify i => at_ i fun e =>
    match e.common.verifySequence w.seqs (callDesc cx info args) with
    | .error p => (.error p, sf, w.hit cx e.gid args false)
    | .ok () => sat i e w
  | .sat i => at_ i fun e => sat i e w
  | .satisfy i => at_ i fun e => satisfy i e w
  | .ret i => at_ i fun e => ret i e w
  | .leave r => (r, sf, w)
  | _ => (.ok none, sf, w)

/-- Is the operation in the part of a call that holds the mutex, before the release? -/
def SPc.calling : SPc V → Bool
  | .scan _ | .check _ | .inc _ | .verify _ | .sat _ | .satisfy _ | .ret _ => true
  | _ => false

theorem SAct.inner_mi (env : Env V) (act : SAct V) (sf : StaticFn V) (w : World V) :
    (act.inner env sf w).2.1.mi = sf.mi := by
  unfold SAct.inner
  simp only
  repeat' split
  all_goals rfl

theorem SAct.inner_poison (env : Env V) (act : SAct V) (sf : StaticFn V) (w : World V) :
    (act.inner env sf w).2.1.poison = sf.poison := by
  unfold SAct.inner
  simp only
  repeat' split
  all_goals rfl

theorem SAct.inner_rest (env : Env V) (act : SAct V) (sf : StaticFn V) (w : World V) (h : act.pc.calling = true) :
    let o := act.inner env sf w
    SAct.rest env { act with pc := o.1 } o.2.1 o.2.2 = act.rest env sf w := by
  obtain ⟨tid, op, pc⟩ := act
  intro o
  cases pc with
  | scan i =>
    simp only [o, SAct.inner]
    rcases he : (sf.store.vec op.key)[i]? with _ | e
    · have hl : (sf.store.vec op.key).length ≤ i := by simpa using he
      simp only [SAct.rest, List.drop_eq_nil_of_le hl, List.take_of_length_le hl, callScan, List.append_nil,
        Store.setVec_self]
    · obtain ⟨hlt, hget⟩ := List.getElem?_eq_some_iff.mp he
      have hd : (sf.store.vec op.key).drop i = e :: (sf.store.vec op.key).drop (i + 1) := by
        rw [List.drop_eq_getElem_cons hlt, hget]
      have hset : ∀ e' : Expectation V, (sf.store.vec op.key).set i e' =
          (sf.store.vec op.key).take i ++ e' :: (sf.store.vec op.key).drop (i + 1) := by
        intro e'
        rw [List.set_eq_take_append_cons_drop, if_pos hlt]
      have htake : ∀ e' : Expectation V, ((sf.store.vec op.key).set i e').take (i + 1) =
          (sf.store.vec op.key).take i ++ [e'] := by
        intro e'
        rw [List.take_succ_eq_append_getElem (by simpa using hlt), List.take_set, List.set_eq_of_length_le (by rw [List.length_take]; exact Nat.min_le_left _ _)]
        simp
      have hdrop : ∀ e' : Expectation V, ((sf.store.vec op.key).set i e').drop (i + 1) =
          (sf.store.vec op.key).drop (i + 1) := by
        intro e'
        rw [List.drop_set_of_lt (by omega)]
      simp only
      rcases hm : e.matches (env.cx tid).tid op.args with ⟨_ | _ | _, e'⟩
      · simp only [SAct.rest, hd, callScan, hm, hset]
      · simp only [SAct.rest, Store.vec_setVec he, hdrop, htake, Store.setVec_setVec, List.length_set]
        rw [hd, callScan, hm]
        simp only [List.append_assoc, List.singleton_append]
      · simp only [SAct.rest, Store.vec_setVec he, hdrop, htake, Store.setVec_setVec, List.length_set]
        rw [hd, callScan, hm]
        simp only [List.getElem?_set_self hlt]
        rcases e'.isDone with p | d
        · simp only [hset]
        · simp only
          split
          · simp only [List.set_set]
            rcases e'.call (env.cx tid) (sf.mi.fn op.key) op.args w with ⟨_ | _, e'', w'⟩ <;> simp only [hset] <;> rfl
          · simp only [List.append_assoc, List.singleton_append]
  | check i =>
    simp only [o, SAct.inner]
    rcases he : (sf.store.vec op.key)[i]? with _ | e
    · simp only [SAct.rest, he]
    · simp only
      rcases hi : e.isDone with p | d
      · simp only [SAct.rest, he, hi]
      · by_cases hc : (!d || (sf.store.vec op.key).length == 1) = true
        · simp only [SAct.rest, he, hi, hc, if_true]
        · simp only [SAct.rest, he, hi, hc]
          rfl
  | inc i =>
    simp only [o, SAct.inner]
    rcases he : (sf.store.vec op.key)[i]? with _ | e
    · simp only [SAct.rest, he]
    · obtain ⟨hlt, hget⟩ := List.getElem?_eq_some_iff.mp he
      simp only
      rcases hc : e.common.times.call with ⟨p | m | u, t⟩
      · simp only [SAct.rest, he, Expectation.call, Common.call, hc, World.hit]
        rfl
      · simp only [SAct.rest, he, Expectation.call, Common.call, hc, World.hit]
        rfl
      · simp only [SAct.rest, he, Expectation.call, Common.call, hc, Store.vec_setVec he, Store.setVec_setVec,
          List.getElem?_set_self hlt, List.set_set]
        rcases hv : ({ e.common with times := t } : Common V).verifySequence w.seqs
          (callDesc (env.cx tid) (sf.mi.fn op.key) op.args) with p | _
        · simp only [World.hit]
          rfl
        · simp only
          by_cases hs : t.isSatisfied ≠ .tooFew
          · simp only [if_pos hs]
            rcases ({ e.common with times := t } : Common V).satisfySequence w.seqs with ⟨p | _, q⟩
            · simp only [World.hit]
              rfl
            · simp only [World.hit]
          · simp only [if_neg hs]
            rfl
  | verify i =>
    simp only [o, SAct.inner]
    rcases he : (sf.store.vec op.key)[i]? with _ | e
    · simp only [SAct.rest, he]
    · simp only
      rcases hv : e.common.verifySequence w.seqs (callDesc (env.cx tid) (sf.mi.fn op.key) op.args) with p | _
      · simp only [SAct.rest, he, hv]
      · simp only [SAct.rest, he, hv]
  | sat i =>
    simp only [o, SAct.inner]
    rcases he : (sf.store.vec op.key)[i]? with _ | e
    · simp only [SAct.rest, he]
    · simp only
      by_cases hs : e.common.times.isSatisfied ≠ .tooFew
      · simp only [if_pos hs, SAct.rest, he]
      · simp only [if_neg hs, SAct.rest, he]
  | satisfy i =>
    simp only [o, SAct.inner]
    rcases he : (sf.store.vec op.key)[i]? with _ | e
    · simp only [SAct.rest, he]
    · simp only
      rcases hs : e.common.satisfySequence w.seqs with ⟨p | _, q⟩
      · simp only [SAct.rest, he, hs]
      · simp only [SAct.rest, he, hs]
  | ret i =>
    simp only [o, SAct.inner]
    rcases he : (sf.store.vec op.key)[i]? with _ | e
    · simp only [SAct.rest, he]
    · simp only [SAct.rest, he]
  | _ => simp [SPc.calling] at h

/-- The rest of an operation that holds the mutex: what it will report, and the state it will leave behind. -/
def SAct.finish (env : Env V) (act : SAct V) (sf : StaticFn V) (w : World V) : Obs V × StaticFn V × World V :=
  let k := act.op.key
  let es := sf.store.vec k
  let call : Obs V × StaticFn V × World V :=
    let o := act.rest env sf w
    (.value (expectMatch (env.cx act.tid) (sf.mi.fn k) act.op.args o.1), { o.2.1 with poison := panicked o.1 }, o.2.2)
  let leave (i : Nat) (r : Except Panic Unit) : Obs V × StaticFn V × World V :=
    (.unit r false, { sf with poison := panicked r },
      { w with made := w.made ++ [((es[i]?).map (·.chain)).getD []] })
  match act.pc with
  | .push =>
    let o := sf.store.expect env.nightly sf.mi k act.op.chain w
    (.unit o.1 false, { sf with store := o.2.1, poison := panicked o.1 }, o.2.2)
  | .build i bs =>
    match es[i]? with
    | none => leave i (.ok ())
    | some e =>
      let o := Expectation.builds bs e w.seqs
      (.unit o.1 false, { sf with store := sf.store.setVec k (es.set i o.2.1), poison := panicked o.1 },
        { w with seqs := o.2.2, made := w.made ++ [o.2.1.chain] })
  | .leaveExpect i r => leave i r
  | .drain =>
    let r := dropAll act.op.panicking sf.mi.base (sf.store.elems env)
    (.unit r.1 r.2, { sf with store := sf.store.drained }, w)
  | .leaveDrain es =>
    (.unit (dropAll act.op.panicking sf.mi.base es).1 (dropAll act.op.panicking sf.mi.base es).2, sf, w)
  | _ => call

/-- The places with the mutex before the release. -/
def SPc.working : SPc V → Bool
  | .scan _ | .check _ | .inc _ | .verify _ | .sat _ | .satisfy _ | .ret _ | .push | .build _ _ | .drain => true
  | _ => false

/-- The places with the mutex. -/
def SPc.inside : SPc V → Bool
  | .leave _ | .leaveExpect _ _ | .leaveDrain _ => true
  | pc => pc.working

theorem SAct.inner_inside (env : Env V) (act : SAct V) (sf : StaticFn V) (w : World V) (h : act.pc.working = true) :
    (act.inner env sf w).1.inside = true := by
  obtain ⟨tid, op, pc⟩ := act
  cases pc <;> simp only [SPc.working, Bool.false_eq_true] at h <;> simp only [SAct.inner]
  all_goals repeat' split
  all_goals first | rfl | (split <;> rfl)

theorem SAct.finish_call (env : Env V) (act : SAct V) (sf : StaticFn V) (w : World V)
    (h : act.pc.calling = true ∨ ∃ r, act.pc = .leave r) :
    act.finish env sf w = (.value (expectMatch (env.cx act.tid) (sf.mi.fn act.op.key) act.op.args (act.rest env sf w).1),
      { (act.rest env sf w).2.1 with poison := panicked (act.rest env sf w).1 }, (act.rest env sf w).2.2) := by
  obtain ⟨tid, op, pc⟩ := act
  cases pc <;> simp [SPc.calling] at h <;> rfl

theorem SAct.inner_finish (env : Env V) (act : SAct V) (sf : StaticFn V) (w : World V)
    (h : act.pc.working = true) :
    let o := act.inner env sf w
    SAct.finish env { act with pc := o.1 } o.2.1 o.2.2 = act.finish env sf w := by
  intro o
  by_cases hc : act.pc.calling = true
  · have hr := SAct.inner_rest env act sf w hc
    have hn : (act.inner env sf w).1.calling = true ∨ ∃ r, (act.inner env sf w).1 = .leave r := by
      obtain ⟨tid, op, pc⟩ := act
      cases pc <;> simp only [SPc.calling, Bool.false_eq_true] at hc <;> simp only [SAct.inner]
      all_goals repeat' split
      all_goals first
        | exact .inl rfl
        | exact .inr ⟨_, rfl⟩
        | (split <;> first | exact .inl rfl | exact .inr ⟨_, rfl⟩)
    simp only at hr
    rw [SAct.finish_call env act sf w (.inl hc), SAct.finish_call env _ _ _ hn]
    simp only [o, hr, SAct.inner_mi]
  · obtain ⟨tid, op, pc⟩ := act
    cases pc <;> simp [SPc.working, SPc.calling] at h hc
    · -- push
      simp only [o, SAct.inner, SAct.finish, Store.vec_push, Store.expect_vec]
      rw [List.getElem?_append_right (Nat.le_refl _)]
      simp only [Nat.sub_self, List.getElem?_cons_zero]
      rw [List.set_append_right _ _ (Nat.le_refl _)]
      simp only [Nat.sub_self, List.set_cons_zero, Store.push_setVec]
    · -- build
      rename_i i bs
      simp only [o, SAct.inner]
      rcases he : (sf.store.vec op.key)[i]? with _ | e
      · simp only [SAct.finish, he]
      · obtain ⟨hlt, hget⟩ := List.getElem?_eq_some_iff.mp he
        cases bs with
        | nil =>
          simp only [SAct.finish, he, Expectation.builds]
          have hs : (sf.store.vec op.key).set i e = sf.store.vec op.key := by
            rw [← hget]
            exact List.set_getElem_self hlt
          rw [hs, Store.setVec_self]
          rfl
        | cons b bs =>
          simp only [SAct.finish, he, Expectation.builds]
          rcases hb : e.build b w.seqs with ⟨p | _, e', q⟩
          · simp only [Store.vec_setVec he, List.getElem?_set_self hlt]
            rfl
          · simp only [Store.vec_setVec he, List.getElem?_set_self hlt, List.set_set, Store.setVec_setVec]
    · -- drain
      rfl

end Mockall
