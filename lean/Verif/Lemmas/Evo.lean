import Verif.Rt.System

/-! # Helper lemmas: what one program step does to the set of all live expectations -/

namespace Mockall

variable {V : Type}

/-- All expectations of a store, in storage order. -/
def Store.all : Store V → List (Expectation V)
  | .concrete es => es
  | .generic m => m.flatMap (·.2)

def Obj.all (o : Obj V) : List (Expectation V) := o.flatMap (·.store.all)

def optAll : Option (Obj V) → List (Expectation V)
  | none => []
  | some o => o.all

/-- All live expectations. -/
def Sys.all (s : Sys V) : List (Expectation V) :=
  s.objs.flatMap optAll ++ s.statics.flatMap (·.store.all)

/-- The thread, arguments and reference update of a call operation. -/
def Op.callInfo? : Op V → Option (Nat × List V × (V → V))
  | .call _ _ _ tid args upd => some (tid, args, upd)
  | .scall _ _ tid args => some (tid, args, id)
  | _ => none

/-- The builder chain of an expect operation. -/
def Op.builds? : Op V → Option (List (Build V))
  | .expect _ _ _ bs => some bs
  | .sexpect _ _ bs => some bs
  | _ => none

/-- `l'` arises from `l` by replacing one element `e` by `e'`. -/
def OneChange (l : List (Expectation V)) (e e' : Expectation V) (l' : List (Expectation V)) : Prop :=
  ∃ l1 l2, l = l1 ++ e :: l2 ∧ l' = l1 ++ e' :: l2

/-- `l'` arises from `l` by inserting `e`. -/
def OneInsert (l : List (Expectation V)) (e : Expectation V) (l' : List (Expectation V)) : Prop :=
  ∃ l1 l2, l = l1 ++ l2 ∧ l' = l1 ++ e :: l2

/-- The effect of a call on a list of expectations. -/
inductive CallEvo (cx : Cx V) (info : FnInfo V) (args : List V) (l : List (Expectation V)) (w : World V) :
    Except Panic (Option V) → List (Expectation V) → World V → Prop
  /-- nobody answers -/
  | none : CallEvo cx info args l w (.ok none) l w
  /-- a panic before anything was changed (`is_done` overflows) -/
  | early (p : Panic) : CallEvo cx info args l w (.error p) l w
  /-- a user predicate panics -/
  | pred {e e' p l'} (h : OneChange l e e' l') (hm : e.matches cx.tid args = (.error p, e')) :
      CallEvo cx info args l w (.error p) l' w
  /-- an expectation is selected and called -/
  | hit {e l' r} (h : OneChange l e (e.call cx info args w).2.1 l')
      (hm : e.matches cx.tid args = (.ok true, e))
      (hr : r = match (e.call cx info args w).1 with | .ok v => .ok (some v) | .error p => .error p) :
      CallEvo cx info args l w r l' (e.call cx info args w).2.2

theorem OneChange.cons {l l' : List (Expectation V)} {e e' : Expectation V} (h : OneChange l e e' l')
    (x : Expectation V) : OneChange (x :: l) e e' (x :: l') := by
  obtain ⟨l1, l2, rfl, rfl⟩ := h
  exact ⟨x :: l1, l2, rfl, rfl⟩

theorem OneChange.append_left {l l' : List (Expectation V)} {e e' : Expectation V}
    (h : OneChange l e e' l') (a : List (Expectation V)) : OneChange (a ++ l) e e' (a ++ l') := by
  obtain ⟨l1, l2, rfl, rfl⟩ := h
  exact ⟨a ++ l1, l2, by simp, by simp⟩

theorem OneChange.append_right {l l' : List (Expectation V)} {e e' : Expectation V}
    (h : OneChange l e e' l') (a : List (Expectation V)) : OneChange (l ++ a) e e' (l' ++ a) := by
  obtain ⟨l1, l2, rfl, rfl⟩ := h
  exact ⟨l1, l2 ++ a, by simp, by simp⟩

theorem OneInsert.append_left {l l' : List (Expectation V)} {e : Expectation V}
    (h : OneInsert l e l') (a : List (Expectation V)) : OneInsert (a ++ l) e (a ++ l') := by
  obtain ⟨l1, l2, rfl, rfl⟩ := h
  exact ⟨a ++ l1, l2, by simp, by simp⟩

theorem OneInsert.append_right {l l' : List (Expectation V)} {e : Expectation V}
    (h : OneInsert l e l') (a : List (Expectation V)) : OneInsert (l ++ a) e (l' ++ a) := by
  obtain ⟨l1, l2, rfl, rfl⟩ := h
  exact ⟨l1, l2 ++ a, by simp, by simp⟩

/-- `CallEvo` is monotone under embedding the list into a larger one. -/
theorem CallEvo.embed {cx : Cx V} {info : FnInfo V} {args : List V} {l l' : List (Expectation V)}
    {w w' : World V} {r : Except Panic (Option V)} (h : CallEvo cx info args l w r l' w')
    (a b : List (Expectation V)) :
    CallEvo cx info args (a ++ l ++ b) w r (a ++ l' ++ b) w' := by
  cases h with
  | none => exact .none
  | early p => exact .early p
  | pred h hm => exact .pred ((h.append_left a).append_right b) hm
  | hit h hm hr => exact .hit ((h.append_left a).append_right b) hm hr

theorem callScan_evo (cx : Cx V) (info : FnInfo V) (args : List V) (n : Nat)
    (es : List (Expectation V)) (w : World V) :
    CallEvo cx info args es w (callScan cx info args n es w).1 (callScan cx info args n es w).2.1
      (callScan cx info args n es w).2.2 := by
  induction es with
  | nil => exact .none
  | cons e es ih =>
    unfold callScan
    rcases hx : e.matches cx.tid args with ⟨r, e'⟩
    cases r with
    | error p => exact .pred ⟨[], es, rfl, rfl⟩ hx
    | ok b =>
      have he : e' = e := by
        unfold Expectation.matches Common.matches at hx
        simp only at hx
        split at hx
        · simp at hx
        · split at hx <;> simp at hx
          exact hx.2.symm
      subst he
      cases b with
      | false =>
        have := ih.embed [e'] []
        simpa using this
      | true =>
        simp only
        cases hd : e'.isDone with
        | error p => exact .early p
        | ok done =>
          simp only
          split
          · have hh : OneChange (e' :: es) e' (e'.call cx info args w).2.1
                ((e'.call cx info args w).2.1 :: es) := ⟨[], es, rfl, rfl⟩
            have := CallEvo.hit (w := w) (info := info) hh hx rfl
            revert this
            rcases e'.call cx info args w with ⟨r, e2, w2⟩
            cases r <;> exact id
          · have := ih.embed [e'] []
            simpa using this

/-- A list of key-value pairs splits around the pair found by `get`. -/
theorem GMap.get_split {m : GMap V} {k : Key} {es : List (Expectation V)} (h : GMap.get m k = some es) :
    ∃ a b, m = a ++ (k, es) :: b ∧ ∀ es', GMap.put m k es' = a ++ (k, es') :: b := by
  induction m with
  | nil => simp [GMap.get] at h
  | cons p m ih =>
    obtain ⟨k', v⟩ := p
    by_cases hk : k' = k
    · subst hk
      simp [GMap.get] at h
      subst h
      exact ⟨[], m, rfl, fun es' => by simp [GMap.put]⟩
    · have hb : (k' == k) = false := by simp [hk]
      have : GMap.get m k = some es := by
        unfold GMap.get at h ⊢
        rw [List.find?_cons] at h
        simp only [hb] at h
        exact h
      obtain ⟨a, b, h1, h2⟩ := ih this
      refine ⟨(k', v) :: a, b, by simp [h1], fun es' => ?_⟩
      simp [GMap.put, hk, h2]

theorem GMap.put_none {m : GMap V} {k : Key} (h : GMap.get m k = none) (es : List (Expectation V)) :
    GMap.put m k es = m ++ [(k, es)] := by
  induction m with
  | nil => rfl
  | cons p m ih =>
    obtain ⟨k', v⟩ := p
    have hk : k' ≠ k := by
      intro hk; subst hk; simp [GMap.get] at h
    have hb : (k' == k) = false := by simp [hk]
    have : GMap.get m k = none := by
      unfold GMap.get at h ⊢
      rw [List.find?_cons] at h
      simp only [hb] at h
      exact h
    simp [GMap.put, hk, ih this]

theorem Store.call_evo (cx : Cx V) (mi : MethodInfo V) (k : Key) (args : List V) (s : Store V)
    (w : World V) :
    CallEvo cx (mi.fn k) args s.all w (s.call cx mi k args w).1 (s.call cx mi k args w).2.1.all
      (s.call cx mi k args w).2.2 := by
  cases s with
  | concrete es => exact callScan_evo cx (mi.fn k) args es.length es w
  | generic m =>
    simp only [Store.call]
    cases hg : GMap.get m k with
    | none => exact .none
    | some es =>
      obtain ⟨a, b, h1, h2⟩ := GMap.get_split hg
      simp only [Store.all, h2]
      have := (callScan_evo cx (mi.fn k) args es.length es w).embed (a.flatMap (·.2)) (b.flatMap (·.2))
      simpa [h1, Expectations.call] using this

/-- The expectation created by an `expect` operation. -/
def newExp (nightly : Bool) (info : FnInfo V) (bs : List (Build V)) (w : World V) : Expectation V :=
  (Expectation.builds bs (Expectation.new nightly info w.fresh) w.seqs).2.1

theorem Store.expect_evo (nightly : Bool) (mi : MethodInfo V) (k : Key) (bs : List (Build V)) (s : Store V)
    (w : World V) :
    let o := Expectation.builds bs (Expectation.new nightly (mi.fn k) w.fresh) w.seqs
    (s.expect nightly mi k bs w).1 = o.1 ∧
    OneInsert s.all o.2.1 (s.expect nightly mi k bs w).2.1.all ∧
    (s.expect nightly mi k bs w).2.2 = { w with seqs := o.2.2, fresh := w.fresh + 1, made := w.made ++ [o.2.1.chain] } := by
  cases s with
  | concrete es => exact ⟨rfl, ⟨es, [], by simp [Store.all], rfl⟩, rfl⟩
  | generic m =>
    refine ⟨rfl, ?_, rfl⟩
    simp only [Store.expect, Expectations.expect, Store.all]
    cases hg : GMap.get m k with
    | none =>
      rw [GMap.put_none hg]
      exact ⟨m.flatMap (·.2), [], by simp, by simp⟩
    | some es =>
      obtain ⟨a, b, h1, h2⟩ := GMap.get_split hg
      rw [h2]
      refine ⟨a.flatMap (·.2) ++ es, b.flatMap (·.2), by simp [h1], by simp⟩

/-- The effect of a program step on all live expectations and the shared state. -/
inductive Evo (env : Env V) (l : List (Expectation V)) (w : World V) (op : Op V) :
    Obs V → List (Expectation V) → World V → Prop
  /-- nothing is called and nothing is created: expectations may only disappear -/
  | quiet {ob l'} (h : l'.Sublist l) (ho : ∀ r, ob = .value r → ∃ p, r = .error p) :
      Evo env l w op ob l' w
  | expect {bs info ob l' r} (hb : op.builds? = some bs)
      (hr : ob = .unit r false)
      (hr' : r = (Expectation.builds bs (Expectation.new env.nightly info w.fresh) w.seqs).1)
      (h : OneInsert l (newExp env.nightly info bs w) l') :
      Evo env l w op ob l' { w with
        seqs := (Expectation.builds bs (Expectation.new env.nightly info w.fresh) w.seqs).2.2
        fresh := w.fresh + 1
        made := w.made ++ [(newExp env.nightly info bs w).chain] }
  | pred {tid args upd e e' p ob l'} (hc : op.callInfo? = some (tid, args, upd))
      (h : OneChange l e e' l') (hm : e.matches tid args = (.error p, e'))
      (ho : ob = .value (.error p)) : Evo env l w op ob l' w
  | hit {tid args upd e ob l'} (info : FnInfo V) (hc : op.callInfo? = some (tid, args, upd))
      (hm : e.matches tid args = (.ok true, e))
      (h : OneChange l e (e.call ⟨env.nightly, tid, env.dbg, upd⟩ info args w).2.1 l')
      (ho : ob = .value (e.call ⟨env.nightly, tid, env.dbg, upd⟩ info args w).1) :
      Evo env l w op ob l' (e.call ⟨env.nightly, tid, env.dbg, upd⟩ info args w).2.2

theorem flatMap_set_split {α : Type} (f : α → List (Expectation V)) {l : List α} {i : Nat} {x : α}
    (h : l[i]? = some x) :
    ∃ a b, l.flatMap f = a ++ f x ++ b ∧ ∀ y, (l.set i y).flatMap f = a ++ f y ++ b := by
  induction l generalizing i with
  | nil => simp at h
  | cons z l ih =>
    cases i with
    | zero =>
      simp at h
      subst h
      exact ⟨[], l.flatMap f, by simp, fun y => by simp⟩
    | succ i =>
      simp at h
      obtain ⟨a, b, h1, h2⟩ := ih h
      exact ⟨f z ++ a, b, by simp [h1], fun y => by simp [h2]⟩

theorem CallEvo.toEvo {env : Env V} {op : Op V} {tid : Nat} {args : List V} {upd : V → V}
    {info : FnInfo V} {l l' : List (Expectation V)} {w w' : World V} {r : Except Panic (Option V)}
    (hc : op.callInfo? = some (tid, args, upd))
    (h : CallEvo ⟨env.nightly, tid, env.dbg, upd⟩ info args l w r l' w') (info' : FnInfo V) :
    Evo env l w op (.value (expectMatch ⟨env.nightly, tid, env.dbg, upd⟩ info' args r)) l' w' := by
  cases h with
  | none => exact .quiet (List.Sublist.refl _) (by intro r hr; cases hr; exact ⟨_, rfl⟩)
  | early p => exact .quiet (List.Sublist.refl _) (by intro r hr; cases hr; exact ⟨_, rfl⟩)
  | pred h hm => exact .pred hc h hm rfl
  | @hit e l' r h hm hr =>
    refine .hit info hc hm h ?_
    subst hr
    congr 1
    cases (e.call ⟨env.nightly, tid, env.dbg, upd⟩ info args w).1 <;> rfl

theorem Store.drained_all (s : Store V) : s.drained.all = [] := by
  cases s <;> rfl

theorem Obj.checkpoint_sublist (env : Env V) (pk : Bool) (o : Obj V) :
    (o.checkpoint env pk).2.all.Sublist o.all := by
  induction o with
  | nil => exact List.Sublist.refl _
  | cons s ss ih =>
    unfold Obj.checkpoint
    simp only
    split
    · simp only [Obj.all, List.flatMap_cons, Store.drained_all, List.nil_append]
      exact List.sublist_append_right _ _
    · simp only [Obj.all, List.flatMap_cons, Store.drained_all, List.nil_append] at ih ⊢
      exact ih.trans (List.sublist_append_right _ _)

theorem flatMap_set_sublist {α : Type} (f : α → List (Expectation V)) {l : List α} {i : Nat} {x y : α}
    (h : l[i]? = some x) (hs : (f y).Sublist (f x)) :
    ((l.set i y).flatMap f).Sublist (l.flatMap f) := by
  obtain ⟨a, b, h1, h2⟩ := flatMap_set_split f h
  rw [h1, h2]
  exact ((List.Sublist.refl a).append hs).append (List.Sublist.refl b)

theorem StaticFn.checkpoint_sublist (env : Env V) (pk : Bool) (f : StaticFn V) :
    ((f.checkpoint env pk).2.store.all).Sublist f.store.all := by
  unfold StaticFn.checkpoint
  split
  · exact List.Sublist.refl _
  · simp [Store.drained_all]

theorem checkpointModule_sublist (env : Env V) (fs : List Nat) (sts : List (StaticFn V)) :
    ((checkpointModule env fs sts).2.flatMap (·.store.all)).Sublist (sts.flatMap (·.store.all)) := by
  induction fs generalizing sts with
  | nil => exact List.Sublist.refl _
  | cons f fs ih =>
    unfold checkpointModule
    cases hf : sts[f]? with
    | none => exact List.Sublist.refl _
    | some sf =>
      have hs := flatMap_set_sublist (fun f : StaticFn V => f.store.all) hf
        (StaticFn.checkpoint_sublist env false sf)
      simp only
      split
      · exact hs
      · exact (ih _).trans hs

/-- Every program step is one of the four kinds. -/
theorem step_evo (env : Env V) (s : Sys V) (op : Op V) :
    Evo env s.all s.world op (s.step env op).1 (s.step env op).2.all (s.step env op).2.world := by
  have quietU : ∀ (r : Except Panic Unit) (ab : Bool), ∀ r', Obs.unit r ab = Obs.value (V := V) r' →
      ∃ p, r' = .error p := by
    intro r ab r' h; cases h
  have quietI : ∀ r', Obs.invalid = Obs.value (V := V) r' → ∃ p, r' = .error p := by
    intro r' h; cases h
  cases op with
  | new ms =>
    refine .quiet ?_ (quietU _ _)
    have : (Obj.new ms).all = [] := by
      simp only [Obj.all, Obj.new, List.flatMap_map]
      rw [List.flatMap_eq_nil_iff]
      intro mi _
      simp only [Store.new]
      split <;> rfl
    simp [Sys.step, Sys.all, optAll, this]
  | expect o m k bs =>
    simp only [Sys.step]
    rcases ho : s.objs[o]? with _ | _ | obj
    · exact .quiet (List.Sublist.refl _) quietI
    · exact .quiet (List.Sublist.refl _) quietI
    · simp only [Obj.expect]
      cases hm : obj[m]? with
      | none => exact .quiet (List.Sublist.refl _) quietI
      | some sl =>
        simp only
        obtain ⟨h1, h2, h3⟩ := Store.expect_evo env.nightly sl.mi k bs sl.store s.world
        rw [h3, h1]
        refine .expect rfl rfl rfl ?_
        obtain ⟨a, b, e1, e2⟩ := flatMap_set_split optAll ho
        obtain ⟨c, d, e3, e4⟩ := flatMap_set_split (fun sl : Slot V => sl.store.all) hm
        simp only [Sys.all, e1, e2, optAll, Obj.all, e3, e4]
        exact ((((h2.append_left c).append_right d).append_left a).append_right b).append_right _
  | call o m k tid args upd =>
    simp only [Sys.step]
    rcases ho : s.objs[o]? with _ | _ | obj
    · exact .quiet (List.Sublist.refl _) quietI
    · exact .quiet (List.Sublist.refl _) quietI
    · simp only [Obj.call]
      cases hm : obj[m]? with
      | none => exact .quiet (List.Sublist.refl _) quietI
      | some sl =>
        simp only
        have hc := Store.call_evo ⟨env.nightly, tid, env.dbg, upd⟩ sl.mi k args sl.store s.world
        obtain ⟨a, b, e1, e2⟩ := flatMap_set_split optAll ho
        obtain ⟨c, d, e3, e4⟩ := flatMap_set_split (fun sl : Slot V => sl.store.all) hm
        have hc2 := (hc.embed c d).embed a (b ++ s.statics.flatMap (·.store.all))
        refine CallEvo.toEvo rfl (info := sl.mi.fn k) ?_ _
        simp only [Sys.all, e1, e2, optAll, Obj.all, e3, e4]
        simpa [List.append_assoc] using hc2
  | checkpoint o =>
    simp only [Sys.step]
    rcases ho : s.objs[o]? with _ | _ | obj
    · exact .quiet (List.Sublist.refl _) quietI
    · exact .quiet (List.Sublist.refl _) quietI
    · refine .quiet ?_ (quietU _ _)
      exact (flatMap_set_sublist optAll ho (y := some (obj.checkpoint env false).2)
        (Obj.checkpoint_sublist env false obj)).append
        (List.Sublist.refl _)
  | drop o pk =>
    simp only [Sys.step]
    rcases ho : s.objs[o]? with _ | _ | obj
    · exact .quiet (List.Sublist.refl _) quietI
    · exact .quiet (List.Sublist.refl _) quietI
    · refine .quiet ?_ (quietU _ _)
      exact (flatMap_set_sublist optAll ho (by simp [optAll])).append (List.Sublist.refl _)
  | sexpect f k bs =>
    simp only [Sys.step]
    cases hf : s.statics[f]? with
    | none => exact .quiet (List.Sublist.refl _) quietI
    | some sf =>
      simp only [StaticFn.expect]
      split
      · refine .quiet ?_ (quietU _ _)
        exact (List.Sublist.refl _).append (flatMap_set_sublist _ hf (List.Sublist.refl _))
      · obtain ⟨h1, h2, h3⟩ := Store.expect_evo env.nightly sf.mi k bs sf.store s.world
        obtain ⟨a, b, e1, e2⟩ := flatMap_set_split (fun f : StaticFn V => f.store.all) hf
        simp only [Sys.all, e1, e2]
        rw [h3, h1]
        refine .expect rfl rfl rfl ?_
        exact ((h2.append_left a).append_right b).append_left _
  | scall f k tid args =>
    simp only [Sys.step]
    cases hf : s.statics[f]? with
    | none => exact .quiet (List.Sublist.refl _) quietI
    | some sf =>
      simp only [StaticFn.call]
      split
      · refine .quiet ?_ (by intro r hr; cases hr; exact ⟨_, rfl⟩)
        exact (List.Sublist.refl _).append (flatMap_set_sublist _ hf (List.Sublist.refl _))
      · have hc := Store.call_evo ⟨env.nightly, tid, env.dbg, id⟩ sf.mi k args sf.store s.world
        obtain ⟨a, b, e1, e2⟩ := flatMap_set_split (fun f : StaticFn V => f.store.all) hf
        have hc2 := hc.embed (s.objs.flatMap optAll ++ a) b
        refine CallEvo.toEvo rfl (info := sf.mi.fn k) ?_ _
        simp only [Sys.all, e1, e2]
        simpa [List.append_assoc] using hc2
  | scheckpoint f =>
    simp only [Sys.step]
    cases hf : s.statics[f]? with
    | none => exact .quiet (List.Sublist.refl _) quietI
    | some sf =>
      refine .quiet ?_ (quietU _ _)
      exact (List.Sublist.refl _).append
        (flatMap_set_sublist _ hf (StaticFn.checkpoint_sublist env false sf))
  | sdrop f pk =>
    simp only [Sys.step]
    cases hf : s.statics[f]? with
    | none => exact .quiet (List.Sublist.refl _) quietI
    | some sf =>
      refine .quiet ?_ (quietU _ _)
      refine (List.Sublist.refl _).append (flatMap_set_sublist _ hf ?_)
      unfold StaticFn.dropContext
      split
      · simp [Store.drained_all]
      · exact StaticFn.checkpoint_sublist env false sf
  | mcheckpoint fs =>
    simp only [Sys.step]
    refine .quiet ((List.Sublist.refl _).append (checkpointModule_sublist env fs s.statics)) ?_
    intro r hr
    split at hr <;> cases hr

end Mockall
