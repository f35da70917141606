import Verif.Spec.Forget
import Verif.Props.Separate

/-! # C97: a passed checkpoint makes a program forget what was done with the object -/

namespace Mockall.Props

open Spec Spec.Ref

variable {V : Type}

/-- The state after a program without generic methods. -/
def stAfter (nightly : Bool) (dbg : V → String) (s : St V) (ops : List (Op V)) : St V :=
  ops.foldl (fun s op => (s.step nightly dbg (fun _ => []) op).2) s

theorem run_app (nightly : Bool) (dbg : V → String) (b : List (Op V)) : ∀ (a : List (Op V)) (s : St V),
    Ref.run nightly dbg s (a ++ b) = Ref.run nightly dbg s a ++ Ref.run nightly dbg (stAfter nightly dbg s a) b
  | [], _ => rfl
  | op :: a, s => by
    simp only [List.cons_append, Ref.run, run_app nightly dbg b a]
    rfl

theorem run_len (nightly : Bool) (dbg : V → String) : ∀ (a : List (Op V)) (s : St V),
    (Ref.run nightly dbg s a).length = a.length
  | [], _ => rfl
  | op :: a, s => by simp [Ref.run, run_len nightly dbg a]

theorem drop_run (nightly : Bool) (dbg : V → String) (a : List (Op V)) (s : St V) (l : List (Obs V)) (n : Nat) :
    (Ref.run nightly dbg s a ++ l).drop (a.length + n) = l.drop n := by
  rw [← run_len nightly dbg a s, List.drop_length_add_append]

/-- The methods as they were when the object was made. -/
def blank (ms : List (Meth V)) : List (Meth V) := ms.map fun m => Meth.new m.mi

/-- The second program has done nothing with the object. -/
def Unused (o : Nat) (s s' : St V) : Prop :=
  ∀ ms, s.objs[o]? = some (some ms) → s'.objs[o]? = some (some (blank ms))

theorem blank_set {ms : List (Meth V)} {i : Nat} {x y : Meth V} (hx : ms[i]? = some x) (hy : y.mi = x.mi) :
    blank (ms.set i y) = blank ms := by
  apply List.ext_getElem?
  intro j
  simp only [blank, List.getElem?_map, List.getElem?_set]
  split
  · rename_i e
    subst e
    obtain ⟨h1, rfl⟩ := List.getElem?_eq_some_iff.1 hx
    simp [h1, hy]
  · rfl

theorem blank_checkpoint (ks : Nat → List Key) (ms : List (Meth V)) : blank (checkpoint ks ms) = blank ms := by
  apply List.ext_getElem?
  intro j
  simp only [blank, checkpoint, List.getElem?_map, List.getElem?_mapIdx]
  cases ms[j]? with
  | none => rfl
  | some m =>
    simp only [Option.map_some]
    split <;> rfl

/-- A checkpoint that finds nothing wrong. -/
theorem checkpoint_blank {ks : Nat → List Key} {ms : List (Meth V)} (h : fault ks ms = none) :
    checkpoint ks ms = blank ms := by
  have hn : ms.zipIdx.findIdx (fun x => (x.1.fault (ks x.2)).isSome) = ms.zipIdx.length := by
    rw [List.findIdx_eq_length]
    intro x hx
    have := List.findSome?_eq_none_iff.1 h x hx
    simp [this]
  apply List.ext_getElem?
  intro j
  simp only [blank, checkpoint, hn, List.getElem?_map, List.getElem?_mapIdx, List.length_zipIdx]
  cases hj : ms[j]? with
  | none => rfl
  | some m =>
    have := (List.getElem?_eq_some_iff.1 hj).1
    simp [Nat.le_of_lt this]

/-- An operation on something else leaves the object alone. -/
theorem step_obj {o : Nat} {seq : Nat → Bool} {op : Op V} (hm : (Part.without o seq).mine op = true)
    (hn : ∀ ms, op ≠ .new ms) (nightly : Bool) (dbg : V → String) (ks : Nat → List Key) (s : St V) :
    (s.step nightly dbg ks op).2.objs[o]? = s.objs[o]? := by
  cases op with
  | new ms => exact absurd rfl (hn ms)
  | expect o' m k bs =>
    have hne : o' ≠ o := by simpa [Part.mine, Part.without] using hm
    simp only [St.step]
    repeat' split
    all_goals simp [hne]
  | call o' m k tid args upd =>
    have hne : o' ≠ o := by simpa [Part.mine, Part.without] using hm
    simp only [St.step]
    repeat' split
    all_goals simp [hne]
  | checkpoint o' =>
    have hne : o' ≠ o := by simpa [Part.mine, Part.without] using hm
    simp only [St.step]
    repeat' split
    all_goals simp [hne]
  | drop o' p =>
    have hne : o' ≠ o := by simpa [Part.mine, Part.without] using hm
    simp only [St.step]
    split
    all_goals simp [hne]
  | sexpect f k bs => simp only [St.step]; split <;> rfl
  | scall f k tid args =>
    simp only [St.step]
    repeat' split
    all_goals rfl
  | scheckpoint f => simp only [St.step]; split <;> rfl
  | sdrop f p => simp only [St.step]; split <;> rfl
  | mcheckpoint fs => rfl

theorem unused_new {o : Nat} {s s' : St V} (h : Unused o s s') (hl : s.objs.length = s'.objs.length)
    (nightly : Bool) (dbg : V → String) (ks : Nat → List Key) (mis : List (MethodInfo V)) :
    Unused o (s.step nightly dbg ks (.new mis)).2 (s'.step nightly dbg ks (.new mis)).2 := by
  intro ms hms
  simp only [St.step, List.getElem?_append, ← hl] at hms ⊢
  split
  · rename_i hlt
    rw [if_pos hlt] at hms
    exact h ms hms
  · rename_i hlt
    rw [if_neg hlt] at hms
    cases hi : o - s.objs.length with
    | zero =>
      rw [hi] at hms
      simp only [List.getElem?_cons_zero, Option.some.injEq] at hms ⊢
      subst hms
      simp [blank, Meth.new]
    | succ n => rw [hi] at hms; simp at hms

theorem unused_other {o : Nat} {seq : Nat → Bool} {s s' : St V} (h : Unused o s s') {op : Op V}
    (hm : (Part.without o seq).mine op = false) (nightly : Bool) (dbg : V → String) (ks : Nat → List Key) :
    Unused o (s.step nightly dbg ks op).2 s' := by
  have put : ∀ {ms : List (Meth V)} {v : List (Meth V)} {t : St V}, s.objs[o]? = some (some ms) → blank v = blank ms →
      t.objs = s.objs.set o (some v) → Unused o t s' := by
    intro ms v t h1 h2 h3 ms' h4
    have hlt := (List.getElem?_eq_some_iff.1 h1).1
    rw [h3, List.getElem?_set] at h4
    simp only [hlt, if_true, Option.some.injEq] at h4
    rw [← h4, h2]
    exact h ms h1
  cases op with
  | new ms => simp [Part.mine] at hm
  | expect o' m k bs =>
    obtain rfl : o' = o := by simpa [Part.mine, Part.without] using hm
    simp only [St.step]
    split
    · rename_i ms h1
      split
      · rename_i x hx
        exact put h1 (blank_set (y := x.put k _) hx rfl) rfl
      · exact h
    · exact h
  | call o' m k tid args upd =>
    obtain rfl : o' = o := by simpa [Part.mine, Part.without] using hm
    simp only [St.step]
    split
    · rename_i ms h1
      split
      · rename_i x hx
        split
        · exact put h1 (blank_set (y := x.put k _) hx rfl) rfl
        · exact h
      · exact h
    · exact h
  | checkpoint o' =>
    obtain rfl : o' = o := by simpa [Part.mine, Part.without] using hm
    simp only [St.step]
    split
    · rename_i ms h1
      exact put h1 (blank_checkpoint ks ms) rfl
    · exact h
  | drop o' p =>
    obtain rfl : o' = o := by simpa [Part.mine, Part.without] using hm
    simp only [St.step]
    split
    · rename_i ms h1
      intro ms' h4
      have hlt := (List.getElem?_eq_some_iff.1 h1).1
      simp [hlt] at h4
    · exact h
  | sexpect f k bs => simp [Part.mine, Part.without] at hm
  | scall f k tid args => simp [Part.mine, Part.without] at hm
  | scheckpoint f => simp [Part.mine, Part.without] at hm
  | sdrop f p => simp [Part.mine, Part.without] at hm
  | mcheckpoint fs => simp [Part.mine, Part.without] at hm

/-- A program, and the program without what it does with the object. -/
theorem after_unused {o : Nat} {seq : Nat → Bool} (nightly : Bool) (dbg : V → String) : ∀ {ops : List (Op V)} {s s' : St V},
    Alone (Part.without o seq) s s' → Unused o s s' → (∀ op ∈ ops, (Part.without o seq).Splits op) →
      Alone (Part.without o seq) (stAfter nightly dbg s ops) (stAfter nightly dbg s' (ops.filter (Part.without o seq).mine)) ∧
      Unused o (stAfter nightly dbg s ops) (stAfter nightly dbg s' (ops.filter (Part.without o seq).mine))
  | [], _, _, h, hu, _ => ⟨h, hu⟩
  | op :: ops, s, s', h, hu, hs => by
    have hop := hs op List.mem_cons_self
    have hs' := fun x hx => hs x (List.mem_cons_of_mem _ hx)
    cases hm : (Part.without o seq).mine op with
    | true =>
      simp only [List.filter_cons, hm, if_true]
      refine after_unused nightly dbg (s := (s.step nightly dbg (fun _ => []) op).2)
        (s' := (s'.step nightly dbg (fun _ => []) op).2) (step_mine h hm hop nightly dbg _).2 ?_ hs'
      by_cases hn : ∃ ms, op = .new ms
      · obtain ⟨ms, rfl⟩ := hn
        exact unused_new hu h.olen nightly dbg _ ms
      · intro ms hms
        have hn' : ∀ ms, op ≠ .new ms := fun ms e => hn ⟨ms, e⟩
        rw [step_obj hm hn'] at hms ⊢
        exact hu ms hms
    | false =>
      simp only [List.filter_cons, hm, Bool.false_eq_true, if_false]
      exact after_unused nightly dbg (s := (s.step nightly dbg (fun _ => []) op).2) (step_other h hm hop nightly dbg _)
        (unused_other hu hm nightly dbg _) hs'

/-- All mocks. -/
def everything (seq : Nat → Bool) : Part := ⟨fun _ => true, fun _ => true, seq⟩

theorem run_everything {seq : Nat → Bool} (nightly : Bool) (dbg : V → String) : ∀ {ops : List (Op V)} {s s' : St V},
    Alone (everything seq) s s' → (∀ op ∈ ops, Within seq op) → Ref.run nightly dbg s ops = Ref.run nightly dbg s' ops
  | [], _, _, _, _ => rfl
  | op :: ops, s, s', h, hs => by
    have hm : (everything seq).mine op = true := by cases op <;> simp [everything, Part.mine]
    have hp : (everything seq).Splits op := by
      have := hs op List.mem_cons_self
      cases op <;> simp_all [everything, Part.Splits, Within]
    obtain ⟨h1, h2⟩ := step_mine h hm hp nightly dbg fun _ => []
    simp only [Ref.run]
    rw [h1, run_everything nightly dbg h2 fun x hx => hs x (List.mem_cons_of_mem _ hx)]

/-- C97.  After a `checkpoint` of an object that passes, a program sees what it would see if it had not used the
object before, nor made the checkpoint, provided that the sequences that it had used with the object are used for
nothing else. -/
theorem C97_forgotten (env : Env V) (hf : env.Fair) (sts : List (MethodInfo V)) (pre post : List (Op V)) (o : Nat)
    (hl : pre.length + 1 + post.length ≤ usizeMax) (hg : ∀ mi ∈ sts, mi.generic = false)
    (ho : ∀ op ∈ pre ++ post, Ref.Plain op) (seq : Nat → Bool)
    (hpre : ∀ op ∈ pre, (Part.without o seq).Splits op) (hpost : ∀ op ∈ post, Within seq op)
    (hok : (Sys.run env (pre ++ [.checkpoint o]) (Sys.init sts)).1[pre.length]? = some (.unit (.ok ()) false)) :
    (Sys.run env (pre ++ .checkpoint o :: post) (Sys.init sts)).1.drop (pre.length + 1) =
      (Sys.run env (pre.filter (Part.without o seq).mine ++ post) (Sys.init sts)).1.drop
        (pre.filter (Part.without o seq).mine).length := by
  have hlen := List.length_filter_le (Part.without o seq).mine pre
  have hplain : ∀ op ∈ pre, Ref.Plain op := fun op h => ho op (List.mem_append_left _ h)
  have hplain' : ∀ op ∈ post, Ref.Plain op := fun op h => ho op (List.mem_append_right _ h)
  rw [C84_exact env hf sts _ (by simp; omega) hg (by
    intro op h
    rcases List.mem_append.1 h with h | h
    · exact hplain op h
    · obtain rfl := List.mem_singleton.1 h
      trivial)] at hok
  rw [C84_exact env hf sts _ (by simp; omega) hg (by
    intro op h
    rcases List.mem_append.1 h with h | h
    · exact hplain op h
    · rcases List.mem_cons.1 h with rfl | h
      · trivial
      · exact hplain' op h)]
  rw [C84_exact env hf sts _ (by simp; omega) hg (by
    intro op h
    rcases List.mem_append.1 h with h | h
    · exact hplain op (List.mem_filter.1 h).1
    · exact hplain' op h)]
  obtain ⟨h, hu⟩ := after_unused env.nightly env.dbg (Alone.init (Part.without o seq) sts)
    (fun ms hms => by simp [St.init] at hms) hpre
  rw [run_app, List.getElem?_append_right (by simp [run_len]), run_len, Nat.sub_self] at hok
  rw [run_app, run_app]
  revert h hu hok
  generalize stAfter env.nightly env.dbg (St.init sts) pre = s
  generalize stAfter env.nightly env.dbg (St.init sts) (pre.filter (Part.without o seq).mine) = s'
  intro hok h hu
  rw [drop_run, ← Nat.add_zero (pre.filter _).length, drop_run]
  simp only [Ref.run, List.getElem?_cons_zero, Option.some.injEq, List.drop_succ_cons, List.drop_zero] at hok ⊢
  simp only [St.step] at hok ⊢
  split at hok
  · rename_i ms hms
    have hfault : fault (fun _ => []) ms = none := by
      cases hx : fault (fun _ => []) ms with
      | none => rfl
      | some p => rw [hx] at hok; simp [outcome] at hok
    have hlt := (List.getElem?_eq_some_iff.1 hms).1
    simp only
    refine run_everything env.nightly env.dbg ?_ hpost
    refine ⟨by simp [h.olen], fun i _ => ?_, fun i ms' hi => ?_, h.slen, fun f _ => h.stats f rfl, nofun,
      fun f x hx => h.sseq f x hx, h.joined, h.turn⟩
    · simp only [List.getElem?_set]
      split
      · rename_i e
        subst e
        rw [checkpoint_blank hfault, hu ms hms]
      · rename_i e
        exact h.objs i (by simpa [Part.without] using fun x => e x.symm)
    · simp only [List.getElem?_set] at hi
      split at hi
      · rw [checkpoint_blank hfault] at hi
        cases hi
        intro m hm
        obtain ⟨x, -, rfl⟩ := List.mem_map.1 hm
        exact new_in _
      · rename_i e
        have hb : (Part.without o seq).obj i = true := by simpa [Part.without] using fun x => e x.symm
        intro m hm
        have := h.oseq i ms' hi m hm
        rw [hb] at this
        exact this
  · cases hok

/-! ## Static methods -/

theorem after_alone {P : Part} (nightly : Bool) (dbg : V → String) : ∀ {ops : List (Op V)} {s s' : St V},
    Alone P s s' → (∀ op ∈ ops, P.Splits op) → Alone P (stAfter nightly dbg s ops) (stAfter nightly dbg s' (ops.filter P.mine))
  | [], _, _, h, _ => h
  | op :: ops, s, s', h, hs => by
    have hop := hs op List.mem_cons_self
    have hs' := fun x hx => hs x (List.mem_cons_of_mem _ hx)
    cases hm : P.mine op with
    | true =>
      simp only [List.filter_cons, hm, if_true]
      exact after_alone nightly dbg (s := (s.step nightly dbg (fun _ => []) op).2)
        (s' := (s'.step nightly dbg (fun _ => []) op).2) (step_mine h hm hop nightly dbg _).2 hs'
    | false =>
      simp only [List.filter_cons, hm, Bool.false_eq_true, if_false]
      exact after_alone nightly dbg (s := (s.step nightly dbg (fun _ => []) op).2) (step_other h hm hop nightly dbg _) hs'

/-- C97 for static methods: after the `Context` is dropped, a program sees what it would see if it had not used the
method before, whether the drop panics or not, unless it does because the method is poisoned. -/
theorem C97_context (env : Env V) (hf : env.Fair) (sts : List (MethodInfo V)) (pre post : List (Op V)) (f : Nat)
    (panicking : Bool) (hl : pre.length + 1 + post.length ≤ usizeMax) (hg : ∀ mi ∈ sts, mi.generic = false)
    (ho : ∀ op ∈ pre ++ post, Ref.Plain op) (seq : Nat → Bool)
    (hpre : ∀ op ∈ pre, (Part.withoutFn f seq).Splits op) (hpost : ∀ op ∈ post, Within seq op)
    (hok : (Sys.run env (pre ++ [.sdrop f panicking]) (Sys.init sts)).1[pre.length]? ≠
      some (.unit (.error .poisoned) false)) :
    (Sys.run env (pre ++ .sdrop f panicking :: post) (Sys.init sts)).1.drop (pre.length + 1) =
      (Sys.run env (pre.filter (Part.withoutFn f seq).mine ++ post) (Sys.init sts)).1.drop
        (pre.filter (Part.withoutFn f seq).mine).length := by
  have hlen := List.length_filter_le (Part.withoutFn f seq).mine pre
  have hplain : ∀ op ∈ pre, Ref.Plain op := fun op h => ho op (List.mem_append_left _ h)
  have hplain' : ∀ op ∈ post, Ref.Plain op := fun op h => ho op (List.mem_append_right _ h)
  rw [C84_exact env hf sts _ (by simp; omega) hg (by
    intro op h
    rcases List.mem_append.1 h with h | h
    · exact hplain op h
    · obtain rfl := List.mem_singleton.1 h
      trivial)] at hok
  rw [C84_exact env hf sts _ (by simp; omega) hg (by
    intro op h
    rcases List.mem_append.1 h with h | h
    · exact hplain op h
    · rcases List.mem_cons.1 h with rfl | h
      · trivial
      · exact hplain' op h)]
  rw [C84_exact env hf sts _ (by simp; omega) hg (by
    intro op h
    rcases List.mem_append.1 h with h | h
    · exact hplain op (List.mem_filter.1 h).1
    · exact hplain' op h)]
  have h := after_alone env.nightly env.dbg (Alone.init (Part.withoutFn f seq) sts) hpre
  rw [run_app, List.getElem?_append_right (by simp [run_len]), run_len, Nat.sub_self] at hok
  rw [run_app, run_app]
  revert h hok
  generalize stAfter env.nightly env.dbg (St.init sts) pre = s
  generalize stAfter env.nightly env.dbg (St.init sts) (pre.filter (Part.withoutFn f seq).mine) = s'
  intro hok h
  rw [drop_run, ← Nat.add_zero (pre.filter _).length, drop_run]
  simp only [Ref.run, List.getElem?_cons_zero, ne_eq, Option.some.injEq, List.drop_succ_cons, List.drop_zero] at hok ⊢
  refine run_everything env.nightly env.dbg ?_ hpost
  have other : ∀ {i : Nat}, f ≠ i → (Part.withoutFn f seq).fn i = true := fun e => by
    simpa [Part.withoutFn] using fun x => e x.symm
  have oseq : ∀ (o : Nat) ms, s.objs[o]? = some (some ms) → ∀ m ∈ ms, MethIn (everything seq) true m := h.oseq
  cases hx : s.statics[f]? with
  | none =>
    simp only [St.step, hx]
    have hx' : s'.statics[f]? = none := by
      rw [List.getElem?_eq_none_iff] at hx ⊢
      rw [← h.slen]
      exact hx
    refine ⟨h.olen, fun i _ => h.objs i rfl, oseq, h.slen, fun i _ => ?_, nofun, fun i x hi => ?_, h.joined, h.turn⟩
    · by_cases e : f = i
      · subst e
        rw [hx, hx']
      · exact h.stats i (other e)
    · by_cases e : f = i
      · subst e
        rw [hx] at hi
        cases hi
      · have := h.sseq i x hi
        rw [other e] at this
        exact this
  | some x =>
    have hlt := (List.getElem?_eq_some_iff.1 hx).1
    have hnew : (if panicking = true then (Except.ok (), (Meth.new x.1.mi, false)) else scheckpoint [] x).2 =
        (Meth.new x.1.mi, false) := by
      simp only [St.step, hx] at hok
      cases panicking with
      | true => rfl
      | false =>
        simp only [scheckpoint, Bool.false_eq_true, if_false] at hok ⊢
        split
        · rename_i hp
          simp [hp] at hok
        · rfl
    simp only [St.step, hx, hnew]
    refine ⟨h.olen, fun i _ => h.objs i rfl, oseq, by simp [h.slen], fun i _ => ?_, nofun, fun i y hi => ?_, h.joined, h.turn⟩
    · simp only [List.getElem?_set, hlt, if_true]
      split
      · rename_i e
        subst e
        exact (h.rest f x (by simp [Part.withoutFn]) hx).symm
      · rename_i e
        exact h.stats i (other e)
    · simp only [List.getElem?_set, hlt, if_true] at hi
      split at hi
      · cases hi
        exact new_in _
      · rename_i e
        have := h.sseq i y hi
        rw [other e] at this
        exact this

/-! ## Examples -/

/-- An object is used, also in a sequence; another one is used in another sequence. -/
def exPast : List (Op Nat) :=
  [.new [refFoo], .new [refFoo],
    .expect 0 0 0 [.times (.n 1), .inSequence 0, .returnConst 7],
    .expect 1 0 0 [.times (.n 2), .inSequence 1, .returnConst 8],
    .call 0 0 0 0 [] id, .call 1 0 0 0 [] id]

/-- Then both are used. -/
def exFuture : List (Op Nat) :=
  [.call 0 0 0 0 [] id, .expect 0 0 0 [.times (.n 1), .inSequence 1, .returnConst 9], .call 1 0 0 0 [] id,
    .call 0 0 0 0 [] id, .drop 0 false]

/-- `C97_forgotten` applies to them. -/
theorem C97_inhabited :
    (Sys.run refEnv (exPast ++ .checkpoint 0 :: exFuture) (Sys.init [])).1.drop 7 =
      (Sys.run refEnv (exPast.filter (Part.without 0 (· == 1)).mine ++ exFuture) (Sys.init [])).1.drop 4 ∧
    (Sys.run refEnv (exPast ++ .checkpoint 0 :: exFuture) (Sys.init [])).1.drop 7 =
      [.value (.error (.noMatch "MockFoo::foo()")), .unit (.ok ()) false, .value (.ok 8), .value (.ok 9),
        .unit (.ok ()) false] := by
  refine ⟨C97_forgotten refEnv refEnv_fair [] exPast exFuture 0 (by decide) (by simp)
    (by simp [exPast, exFuture, Ref.Plain, refFoo]) (· == 1) (by simp [exPast, Part.Splits, Part.without])
    (by simp [exFuture, Within]) (by rfl), by rfl⟩

/-- Why the checkpoint must pass: one that panics keeps the expectations of the methods after the one at fault, here
of the second method, which give values later. -/
theorem C97_failed :
    (Sys.run refEnv [.new [refFoo, refFoo], .expect 0 0 0 [.times (.n 1)], .expect 0 1 0 [.returnConst 7], .checkpoint 0,
      .call 0 1 0 0 [] id] (Sys.init [])).1.drop 3 =
      [.unit (.error (.tooFewAtDrop "MockFoo::foo" "<anything>" 0 1)) false, .value (.ok 7)] ∧
    (Sys.run refEnv [.new [refFoo, refFoo], .call 0 1 0 0 [] id] (Sys.init [])).1.drop 1 =
      [.value (.error (.noMatch "MockFoo::foo()"))] := ⟨by rfl, by rfl⟩

/-- Why the sequences of the past must not be used again: the place that was taken in the sequence, but not reached,
is not given back. -/
theorem C97_sequence :
    (Sys.run refEnv [.new [refFoo], .expect 0 0 0 [.times (.n 0), .inSequence 0], .checkpoint 0,
      .expect 0 0 0 [.times (.n 1), .inSequence 0, .returnConst 7], .call 0 0 0 0 [] id] (Sys.init [])).1.drop 2 =
      [.unit (.ok ()) false, .unit (.ok ()) false, .value (.error (.seqViolation "MockFoo::foo()"))] ∧
    (Sys.run refEnv [.new [refFoo],
      .expect 0 0 0 [.times (.n 1), .inSequence 0, .returnConst 7], .call 0 0 0 0 [] id] (Sys.init [])).1.drop 1 =
      [.unit (.ok ()) false, .value (.ok 7)] := ⟨by rfl, by rfl⟩

/-- A static method gets an expectation in a sequence, and one call too few; the object has one in another sequence. -/
def exStatPast : List (Op Nat) :=
  [.new [refFoo], .sexpect 0 0 [.times (.n 2), .inSequence 0, .returnConst 7], .scall 0 0 0 [],
    .expect 0 0 0 [.times (.n 1), .inSequence 1, .returnConst 8]]

/-- `C97_context` applies: the drop of the `Context` panics, then the method is as new. -/
theorem C97_context_inhabited :
    let post : List (Op Nat) := [.scall 0 0 0 [], .sdrop 0 true, .call 0 0 0 0 [] id]
    (Sys.run refEnv (exStatPast ++ .sdrop 0 false :: post) (Sys.init [refStat])).1.drop 5 =
      (Sys.run refEnv (exStatPast.filter (Part.withoutFn 0 (· == 1)).mine ++ post) (Sys.init [refStat])).1.drop 2 ∧
    (Sys.run refEnv (exStatPast ++ .sdrop 0 false :: post) (Sys.init [refStat])).1.drop 4 =
      [.unit (.error (.tooFewAtDrop "f" "<anything>" 1 2)) false, .value (.error (.noMatch "mock_m::f()")),
        .unit (.ok ()) false, .value (.ok 8)] := by
  refine ⟨C97_context refEnv refEnv_fair [refStat] exStatPast _ 0 false (by decide) (by simp [refStat])
    (by simp [exStatPast, Ref.Plain, refFoo]) (· == 1) (by simp [exStatPast, Part.Splits, Part.withoutFn])
    (by simp [Within]) (fun h => by cases h), by rfl⟩

/-- Why the method must not be poisoned: it stays so when the `Context` is dropped. -/
theorem C97_poisoned :
    (Sys.run refEnv [.sexpect 0 0 [.times (.n 1), .never], .scall 0 0 0 [], .sdrop 0 false, .scall 0 0 0 []]
      (Sys.init [refStat])).1.drop 2 = [.unit (.error .poisoned) false, .value (.error .poisoned)] ∧
    (Sys.run refEnv [.scall 0 0 0 []] (Sys.init [refStat])).1 = [.value (.error (.noMatch "mock_m::f()"))] :=
  ⟨by rfl, by rfl⟩

end Mockall.Props
