import Verif.Spec.Destructors
import Verif.Props.Object
import Verif.Props.Return
import Verif.Props.Messages

/-! # Helper lemmas: destructors of single threaded closures -/

set_option linter.unusedSimpArgs false

namespace Mockall

open Spec

variable {V : Type}

def Matcher.away (tid : Nat) : Matcher V → Bool
  | .funcSt t _ => tid != t
  | _ => false

def Ret.away (tid : Nat) : Ret V → Bool
  | .refMut (.mutSt t _ _) => tid != t
  | .static (.mutSt t _) _ => tid != t
  | .static (.onceSt t _) _ => tid != t
  | _ => false

theorem flatMap_ext {α β : Type} {l : List α} {f g : α → List β} (h : ∀ a ∈ l, f a = g a) :
    l.flatMap f = l.flatMap g := by
  induction l with
  | nil => rfl
  | cons a l ih =>
    rw [List.flatMap_cons, List.flatMap_cons, h a (by simp), ih fun b hb => h b (by simp [hb])]

/-- The expectation holds a single threaded closure of another thread. -/
def Expectation.away (tid : Nat) (e : Expectation V) : Bool := e.common.matcher.away tid || e.ret.away tid

/-- Panics of destructors as a list. -/
def awayList (b : Bool) : List DropPanic := if b then [.wrongThread] else []

/-- The panics the destructors of one expectation would raise. -/
def Expectation.sources (tid : Nat) (info : FnInfo V) (e : Expectation V) : List DropPanic :=
  (e.fault info).toList.map .verify ++ awayList (e.common.matcher.away tid) ++ awayList (e.ret.away tid)

theorem fragileDrop_eq (tid t : Nat) (pk : Bool) :
    fragileDrop tid t pk = if tid != t then .raise pk .wrongThread else .done := by
  unfold fragileDrop
  by_cases h : tid = t <;> simp [h]

theorem Matcher.dropOn_eq (tid : Nat) (pk : Bool) (m : Matcher V) :
    m.dropOn tid pk = if m.away tid then .raise pk .wrongThread else .done := by
  cases m <;> simp [Matcher.dropOn, Matcher.away, fragileDrop_eq]

theorem Ret.dropOn_eq (tid : Nat) (pk : Bool) (r : Ret V) :
    r.dropOn tid pk = if r.away tid then .raise pk .wrongThread else .done := by
  rcases r with r | r | ⟨r, p⟩
  · simp [Ret.dropOn, Ret.away]
  · cases r <;> simp [Ret.dropOn, Ret.away, fragileDrop_eq]
  · cases r <;> simp [Ret.dropOn, Ret.away, fragileDrop_eq]

/-- What a row of destructors does while the thread is panicking. -/
def fateP (l : List DropPanic) : Fate := if .wrongThread ∈ l then .aborted else .done

theorem andThen_panicking {l1 l2 : List DropPanic} {f : Fate} {next : Bool → Fate} (h1 : f = fateP l1)
    (h2 : next true = fateP l2) : f.andThen true next = fateP (l1 ++ l2) := by
  subst h1
  unfold fateP
  by_cases h : DropPanic.wrongThread ∈ l1
  · simp [h, Fate.andThen]
  · simp [h, Fate.andThen, h2, fateP]

theorem andThen_calm {l1 l2 : List DropPanic} {f : Fate} {next : Bool → Fate} (h1 : f = fate l1)
    (h2 : next true = fateP l2) (h3 : next false = fate l2) : f.andThen false next = fate (l1 ++ l2) := by
  subst h1
  cases l1 with
  | nil => simpa [fate, Fate.andThen] using h3
  | cons p l1 =>
    simp only [fate, List.cons_append]
    by_cases h : DropPanic.wrongThread ∈ l1
    · simp [h, Fate.andThen]
    · by_cases h' : DropPanic.wrongThread ∈ l2 <;> simp [h, h', Fate.andThen, h2, fateP]

theorem awayList_panicking (b : Bool) : (if b then Fate.raise true .wrongThread else .done) = fateP (awayList b) := by
  cases b <;> simp [awayList, fateP, Fate.raise]

theorem awayList_calm (b : Bool) : (if b then Fate.raise false .wrongThread else .done) = fate (awayList b) := by
  cases b <;> simp [awayList, fate, Fate.raise]

theorem Expectation.dropOn_panicking (tid : Nat) (info : FnInfo V) (e : Expectation V) :
    e.dropOn tid true info = fateP (e.sources tid info) := by
  unfold Expectation.dropOn Expectation.sources
  refine andThen_panicking ?_ (by rw [Ret.dropOn_eq]; exact awayList_panicking _)
  unfold Common.dropOn
  refine andThen_panicking ?_ (by rw [Matcher.dropOn_eq]; exact awayList_panicking _)
  have : DropPanic.wrongThread ∉ (e.fault info).toList.map DropPanic.verify := by simp
  simp [Common.drop, fateP, this]

theorem Expectation.dropOn_calm (tid : Nat) (info : FnInfo V) (e : Expectation V) :
    e.dropOn tid false info = fate (e.sources tid info) := by
  unfold Expectation.dropOn Expectation.sources
  refine andThen_calm ?_ (by rw [Ret.dropOn_eq]; exact awayList_panicking _)
    (by rw [Ret.dropOn_eq]; exact awayList_calm _)
  unfold Common.dropOn
  refine andThen_calm ?_ (by rw [Matcher.dropOn_eq]; exact awayList_panicking _)
    (by rw [Matcher.dropOn_eq]; exact awayList_calm _)
  unfold Expectation.fault Expectation.drop
  rcases e.common.drop false info.funcname with p | ⟨⟩ <;> simp [fate, Fate.raise]

theorem dropAllOn_panicking (tid : Nat) (info : FnInfo V) (es : List (Expectation V)) :
    dropAllOn tid info true es = fateP (es.flatMap (·.sources tid info)) := by
  induction es with
  | nil => simp [dropAllOn, fateP]
  | cons e es ih => exact andThen_panicking (e.dropOn_panicking tid info) ih

theorem dropAllOn_calm (tid : Nat) (info : FnInfo V) (es : List (Expectation V)) :
    dropAllOn tid info false es = fate (es.flatMap (·.sources tid info)) := by
  induction es with
  | nil => simp [dropAllOn, fate]
  | cons e es ih => exact andThen_calm (e.dropOn_calm tid info) (dropAllOn_panicking tid info es) ih

theorem sources_away {tid : Nat} {info : FnInfo V} {e : Expectation V} :
    .wrongThread ∈ e.sources tid info ↔ e.away tid = true := by
  unfold Expectation.sources Expectation.away awayList
  cases e.common.matcher.away tid <;> cases e.ret.away tid <;> simp

theorem sources_nil {tid : Nat} {info : FnInfo V} {e : Expectation V} :
    e.sources tid info = [] ↔ e.fault info = none ∧ e.away tid = false := by
  unfold Expectation.sources Expectation.away awayList
  cases e.fault info <;> cases e.common.matcher.away tid <;> cases e.ret.away tid <;> simp

theorem fate_done {l : List DropPanic} : fate l = .done ↔ l = [] := by
  cases l with
  | nil => simp [fate]
  | cons p l => simp only [fate]; split <;> simp

/-- While panicking: abort iff some closure belongs to another thread. -/
theorem dropAllOn_abort (tid : Nat) (info : FnInfo V) (es : List (Expectation V)) :
    dropAllOn tid info true es = if es.any (·.away tid) then .aborted else .done := by
  rw [dropAllOn_panicking]
  unfold fateP
  congr 1
  simp [List.mem_flatMap, sources_away]

theorem dropMapOn_abort (tid : Nat) (info : FnInfo V) (m : GMap V) :
    dropMapOn tid info true m = if (m.flatMap (·.2)).any (·.away tid) then .aborted else .done := by
  induction m with
  | nil => simp [dropMapOn]
  | cons p m ih =>
    simp only [dropMapOn, dropAllOn_abort, List.flatMap_cons, List.any_append]
    by_cases h : p.2.any (·.away tid) = true
    · simp [h]
    · simp only [Bool.not_eq_true] at h
      simp only [h, Bool.false_or]
      exact ih

theorem Store.dropOn_abort (env : Env V) (tid : Nat) (info : FnInfo V) (st : Store V) :
    st.dropOn env tid info true = if (st.elems env).any (·.away tid) then .aborted else .done := by
  cases st with
  | concrete es => exact dropAllOn_abort tid info es
  | generic m => exact dropMapOn_abort tid info (env.ord m)

theorem Obj.dropOn_abort (env : Env V) (tid : Nat) (obj : Obj V) :
    obj.dropOn env tid true = if ((obj.order env).map (·.2)).any (·.away tid) then .aborted else .done := by
  induction obj with
  | nil => simp [Obj.dropOn, Obj.order]
  | cons s ss ih =>
    simp only [Obj.dropOn, Store.dropOn_abort, Obj.order, List.flatMap_cons, List.map_append, List.any_append,
      List.map_map]
    have : (s.store.elems env).map ((fun x : FnInfo V × Expectation V => x.2) ∘ fun e => (s.mi.base, e))
        = s.store.elems env := by
      induction s.store.elems env with
      | nil => rfl
      | cons a l ih => simp [ih]
    rw [this]
    by_cases h : (s.store.elems env).any (·.away tid) = true
    · simp [h, Fate.andThen]
    · simp only [Bool.not_eq_true] at h
      simp only [h, Bool.false_or]
      exact ih

/-! ## On the home thread -/

/-- The outcome of the destructors without `Fragile`. -/
def Fate.plain : Except Panic Unit → Fate
  | .ok () => .done
  | .error p => .panicked (.verify p)

theorem dropAllOn_home {tid : Nat} {info : FnInfo V} {es : List (Expectation V)}
    (h : ∀ e ∈ es, e.away tid = false) (pk : Bool) : dropAllOn tid info pk es = .plain (dropAll pk info es).1 := by
  cases pk with
  | true =>
    rw [dropAllOn_abort, dropAll_panicking]
    have : es.any (·.away tid) = false := by rw [List.any_eq_false]; intro e he; simp [h e he]
    simp [this, Fate.plain]
  | false =>
    rw [dropAllOn_calm, dropAll_eq]
    have : es.flatMap (·.sources tid info) = es.flatMap fun e => (e.fault info).toList.map .verify := by
      refine flatMap_ext fun e he => ?_
      have := h e he
      unfold Expectation.away at this
      simp only [Bool.or_eq_false_iff] at this
      simp [Expectation.sources, awayList, this.1, this.2]
    rw [this]
    clear this h
    have hno : ∀ l : List (Expectation V),
        DropPanic.wrongThread ∉ l.flatMap fun e => (e.fault info).toList.map DropPanic.verify := by
      intro l; simp
    induction es with
    | nil => simp [fate, Mockall.verdict, Fate.plain]
    | cons e es ih =>
      simp only [List.flatMap_cons, List.findSome?_cons]
      rcases hf : e.fault info with _ | p
      · simpa using ih
      · simp [fate, hno, Mockall.verdict, Fate.plain]

theorem dropMapOn_home {tid : Nat} {info : FnInfo V} {m : GMap V}
    (h : ∀ e ∈ m.flatMap (·.2), e.away tid = false) (pk : Bool) :
    dropMapOn tid info pk m = .plain (dropAll pk info (m.flatMap (·.2))).1 := by
  induction m with
  | nil => rfl
  | cons p m ih =>
    simp only [List.flatMap_cons, List.mem_append] at h
    simp only [dropMapOn, dropAllOn_home (fun e he => h e (.inl he)), List.flatMap_cons,
      ih fun e he => h e (.inr he)]
    cases pk with
    | true => simp [dropAll_panicking, Fate.plain]
    | false =>
      simp only [dropAll_eq, List.findSome?_append]
      rcases hq : p.2.findSome? (·.fault info) with _ | q <;> simp [hq, Mockall.verdict, Fate.plain]

theorem Store.dropOn_home {env : Env V} {tid : Nat} {info : FnInfo V} {st : Store V}
    (h : ∀ e ∈ st.elems env, e.away tid = false) (pk : Bool) :
    st.dropOn env tid info pk = .plain (dropAll pk info (st.elems env)).1 := by
  cases st with
  | concrete es => exact dropAllOn_home h pk
  | generic m => exact dropMapOn_home h pk

theorem Obj.dropOn_home {env : Env V} {tid : Nat} {obj : Obj V}
    (h : ∀ s ∈ obj, ∀ e ∈ s.store.elems env, e.away tid = false) (pk : Bool) :
    obj.dropOn env tid pk = .plain (obj.drop env pk).1 := by
  induction obj generalizing pk with
  | nil => rfl
  | cons s ss ih =>
    have ih := ih fun s hs => h s (by simp [hs])
    simp only [Obj.dropOn, Obj.drop, Store.dropOn_home (h s (by simp))]
    rcases hd : dropAll pk s.mi.base (s.store.elems env) with ⟨p | ⟨⟩, ab⟩
    · simp [Fate.plain, Fate.andThen, ih, Obj.drop_panicking]
    · simp [Fate.plain, Fate.andThen, ih]

theorem Obj.checkpointOn_home {env : Env V} {tid : Nat} {obj : Obj V}
    (h : ∀ s ∈ obj, ∀ e ∈ s.store.elems env, e.away tid = false) :
    obj.checkpointOn env tid = (.plain (obj.checkpoint env false).1.1, (obj.checkpoint env false).2) := by
  induction obj with
  | nil => rfl
  | cons s ss ih =>
    have ih := ih fun s hs => h s (by simp [hs])
    simp only [Obj.checkpointOn, Obj.checkpoint, Store.dropOn_home (h s (by simp))]
    rcases hd : dropAll false s.mi.base (s.store.elems env) with ⟨p | ⟨⟩, ab⟩
    · simp [Fate.plain]
    · simp [Fate.plain, ih]

theorem StaticFn.checkpointOn_home {env : Env V} {tid : Nat} {f : StaticFn V}
    (h : ∀ e ∈ f.store.elems env, e.away tid = false) :
    f.checkpointOn env tid = (.plain (f.checkpoint env false).1.1, (f.checkpoint env false).2) := by
  unfold StaticFn.checkpointOn StaticFn.checkpoint
  split
  · rfl
  · simp [dropAllOn_home h]

theorem StaticFn.dropContextOn_home {env : Env V} {tid : Nat} {pk : Bool} {f : StaticFn V}
    (h : ∀ e ∈ f.store.elems env, e.away tid = false) :
    f.dropContextOn env tid pk = (.plain (f.dropContext env pk).1.1, (f.dropContext env pk).2) := by
  unfold StaticFn.dropContextOn StaticFn.dropContext
  split
  · simp [dropAllOn_home h]
  · exact StaticFn.checkpointOn_home h

theorem checkpointModuleOn_home {env : Env V} {tid : Nat} {fs : List Nat} {sts : List (StaticFn V)}
    (h : ∀ sf ∈ sts, ∀ e ∈ sf.store.elems env, e.away tid = false) (hord : env.ord [] = []) :
    checkpointModuleOn env tid fs sts =
      ((checkpointModule env fs sts).1.map (fun r => .plain r.1), (checkpointModule env fs sts).2) := by
  induction fs generalizing sts with
  | nil => rfl
  | cons f fs ih =>
    simp only [checkpointModuleOn, checkpointModule]
    rcases hf : sts[f]? with _ | sf
    · rfl
    · simp only [StaticFn.checkpointOn_home (h sf (List.mem_of_getElem? hf))]
      rcases hr : (sf.checkpoint env false).1.1 with p | ⟨⟩
      · simp [Fate.plain]
      · simp only [Fate.plain]
        refine ih ?_
        intro sf' hsf' e he
        rcases List.mem_or_eq_of_mem_set hsf' with hm | rfl
        · exact h sf' hm e he
        · have : (sf.checkpoint env false).2.store.elems env = [] ∨
              (sf.checkpoint env false).2 = sf := by
            unfold StaticFn.checkpoint
            split
            · exact .inr rfl
            · refine .inl ?_
              cases sf.store <;> simp [Store.drained, Store.elems, hord]
          rcases this with h0 | h0
          · rw [h0] at he; simp at he
          · rw [h0] at he; exact h sf (List.mem_of_getElem? hf) e he

theorem Fate.plain_obs (r : Except Panic Unit) : (Fate.plain r).obs (V := V) = .seen (.unit r false) := by
  rcases r with p | ⟨⟩ <;> rfl

theorem Env.Fair.nil {env : Env V} (h : env.Fair) : env.ord [] = [] := (h []).eq_nil

/-- The panic of `into_inner` on a foreign thread does not occur. -/
def Obs.Unmoved (o : Obs V) : Prop := o ≠ .value (.error .fragileMove)

theorem Obs.withMove_unmoved {o : Obs V} (h : o.Unmoved) : o.withMove = .seen o := by
  unfold Obs.withMove
  split
  · exact absurd rfl h
  · rfl

/-- One operation on the home thread of all closures is the operation without destructors. -/
theorem stepOn_home {env : Env V} (hf : env.Fair) {tid : Nat} {s : Sys V} {op : Op V}
    (h : destroys op = true → ∀ e ∈ s.all, e.away tid = false) (hm : (s.step env op).1.Unmoved) :
    s.stepOn env tid op = (.seen (s.step env op).1, (s.step env op).2) := by
  have hobj : ∀ {o : Nat} {obj : Obj V}, s.objs[o]? = some (some obj) → destroys op = true →
      ∀ sl ∈ obj, ∀ e ∈ sl.store.elems env, e.away tid = false := by
    intro o obj ho hd sl hsl e he
    refine h hd e ?_
    simp only [Sys.all, List.mem_append, List.mem_flatMap]
    exact .inl ⟨some obj, List.mem_of_getElem? ho, List.mem_flatMap.mpr ⟨sl, hsl, (Store.mem_elems hf _ _).mp he⟩⟩
  have hst : ∀ sf ∈ s.statics, destroys op = true → ∀ e ∈ sf.store.elems env, e.away tid = false := by
    intro sf hsf hd e he
    refine h hd e ?_
    simp only [Sys.all, List.mem_append, List.mem_flatMap]
    exact .inr ⟨sf, hsf, (Store.mem_elems hf _ _).mp he⟩
  cases op with
  | checkpoint o =>
    simp only [Sys.stepOn, Sys.step]
    rcases ho : s.objs[o]? with _ | _ | obj
    · rfl
    · rfl
    · simp [Obj.checkpointOn_home (hobj ho rfl), Fate.plain_obs, Obj.checkpoint_eq]
  | drop o pk =>
    simp only [Sys.stepOn, Sys.step]
    rcases ho : s.objs[o]? with _ | _ | obj
    · rfl
    · rfl
    · simp only [Obj.dropOn_home (hobj ho rfl), Fate.plain_obs]
      cases pk <;> simp [Obj.drop_eq, Obj.drop_panicking]
  | scheckpoint f =>
    simp only [Sys.stepOn, Sys.step]
    rcases hf' : s.statics[f]? with _ | sf
    · rfl
    · simp [StaticFn.checkpointOn_home (hst sf (List.mem_of_getElem? hf') rfl), Fate.plain_obs,
        StaticFn.checkpoint_noabort]
  | sdrop f pk =>
    simp only [Sys.stepOn, Sys.step]
    rcases hf' : s.statics[f]? with _ | sf
    · rfl
    · simp only [StaticFn.dropContextOn_home (hst sf (List.mem_of_getElem? hf') rfl), Fate.plain_obs]
      cases pk <;> simp [StaticFn.dropContext, StaticFn.checkpoint_noabort, dropAll_panicking]
  | mcheckpoint fs =>
    simp only [Sys.stepOn, Sys.step]
    rw [checkpointModuleOn_home (fun sf hsf => hst sf hsf rfl) hf.nil]
    rcases hc : (checkpointModule env fs s.statics).1 with _ | ⟨r, ab⟩
    · simp
    · have := checkpointModule_noabort env fs s.statics r ab hc
      simp [Fate.plain_obs, this]
  | _ => simp only [Sys.stepOn, Obs.withMove_unmoved hm]

/-! ## Invariants of programs with destructors -/

theorem Obj.checkpointOn_all (env : Env V) (tid : Nat) (o : Obj V) :
    (o.checkpointOn env tid).2.all.Sublist o.all := by
  induction o with
  | nil => exact List.Sublist.refl _
  | cons s ss ih =>
    unfold Obj.checkpointOn
    simp only
    split
    · simp only [Obj.all, List.flatMap_cons, Store.drained_all, List.nil_append] at ih ⊢
      exact ih.trans (List.sublist_append_right _ _)
    · simp only [Obj.all, List.flatMap_cons, Store.drained_all, List.nil_append]
      exact List.sublist_append_right _ _

theorem StaticFn.checkpointOn_all (env : Env V) (tid : Nat) (f : StaticFn V) :
    ((f.checkpointOn env tid).2.store.all).Sublist f.store.all := by
  unfold StaticFn.checkpointOn
  split
  · exact List.Sublist.refl _
  · simp [Store.drained_all]

theorem StaticFn.dropContextOn_all (env : Env V) (tid : Nat) (pk : Bool) (f : StaticFn V) :
    ((f.dropContextOn env tid pk).2.store.all).Sublist f.store.all := by
  unfold StaticFn.dropContextOn
  split
  · simp [Store.drained_all]
  · exact StaticFn.checkpointOn_all env tid f

theorem checkpointModuleOn_all (env : Env V) (tid : Nat) (fs : List Nat) (sts : List (StaticFn V)) :
    ((checkpointModuleOn env tid fs sts).2.flatMap (·.store.all)).Sublist (sts.flatMap (·.store.all)) := by
  induction fs generalizing sts with
  | nil => exact List.Sublist.refl _
  | cons f fs ih =>
    unfold checkpointModuleOn
    cases hf : sts[f]? with
    | none => exact List.Sublist.refl _
    | some sf =>
      have hs := flatMap_set_sublist (fun f : StaticFn V => f.store.all) hf
        (StaticFn.checkpointOn_all env tid sf)
      simp only
      split
      · exact (ih _).trans hs
      · exact hs

/-- A program step with destructors is one of the kinds of `Evo`. -/
theorem stepOn_evo (env : Env V) (tid : Nat) (s : Sys V) (op : Op V) :
    ∃ ob, Evo env s.all s.world op ob (s.stepOn env tid op).2.all (s.stepOn env tid op).2.world := by
  have quietI : ∀ r', Obs.invalid = Obs.value (V := V) r' → ∃ p, r' = .error p := by
    intro r' h; cases h
  cases op with
  | checkpoint o =>
    refine ⟨.invalid, ?_⟩
    simp only [Sys.stepOn]
    rcases ho : s.objs[o]? with _ | _ | obj
    · exact .quiet (List.Sublist.refl _) quietI
    · exact .quiet (List.Sublist.refl _) quietI
    · refine .quiet ?_ quietI
      exact (flatMap_set_sublist optAll ho (y := some (obj.checkpointOn env tid).2)
        (Obj.checkpointOn_all env tid obj)).append (List.Sublist.refl _)
  | drop o pk =>
    refine ⟨.invalid, ?_⟩
    simp only [Sys.stepOn]
    rcases ho : s.objs[o]? with _ | _ | obj
    · exact .quiet (List.Sublist.refl _) quietI
    · exact .quiet (List.Sublist.refl _) quietI
    · refine .quiet ?_ quietI
      exact (flatMap_set_sublist optAll ho (by simp [optAll])).append (List.Sublist.refl _)
  | scheckpoint f =>
    refine ⟨.invalid, ?_⟩
    simp only [Sys.stepOn]
    cases hf : s.statics[f]? with
    | none => exact .quiet (List.Sublist.refl _) quietI
    | some sf =>
      refine .quiet ?_ quietI
      exact (List.Sublist.refl _).append
        (flatMap_set_sublist _ hf (StaticFn.checkpointOn_all env tid sf))
  | sdrop f pk =>
    refine ⟨.invalid, ?_⟩
    simp only [Sys.stepOn]
    cases hf : s.statics[f]? with
    | none => exact .quiet (List.Sublist.refl _) quietI
    | some sf =>
      refine .quiet ?_ quietI
      exact (List.Sublist.refl _).append
        (flatMap_set_sublist _ hf (StaticFn.dropContextOn_all env tid pk sf))
  | mcheckpoint fs =>
    refine ⟨.invalid, .quiet ?_ quietI⟩
    exact (List.Sublist.refl _).append (checkpointModuleOn_all env tid fs s.statics)
  | _ => exact ⟨_, step_evo env s _⟩

theorem Obj.checkpointOn_sorted {ni : Bool} (env : Env V) (tid : Nat) (n : Nat) (obj : Obj V)
    (h : ∀ (m : Nat) (sl : Slot V), obj[m]? = some sl → sl.store.Sorted ni n sl.mi) :
    ∀ (m : Nat) (sl : Slot V), (obj.checkpointOn env tid).2[m]? = some sl → sl.store.Sorted ni n sl.mi := by
  induction obj with
  | nil => simp [Obj.checkpointOn]
  | cons s ss ih =>
    have hss : ∀ (m : Nat) (sl : Slot V), ss[m]? = some sl → sl.store.Sorted ni n sl.mi :=
      fun m sl hm => h (m + 1) sl (by simpa using hm)
    intro m sl hm
    unfold Obj.checkpointOn at hm
    simp only at hm
    split at hm
    · cases m with
      | zero => simp at hm; subst hm; exact (h 0 s rfl).drained _
      | succ m => exact ih hss m sl (by simpa using hm)
    · cases m with
      | zero => simp at hm; subst hm; exact (h 0 s rfl).drained _
      | succ m => exact hss m sl (by simpa using hm)

theorem StaticFn.checkpointOn_sorted {ni : Bool} (env : Env V) (tid : Nat) (n : Nat) (f : StaticFn V)
    (h : f.store.Sorted ni n f.mi) : (f.checkpointOn env tid).2.store.Sorted ni n (f.checkpointOn env tid).2.mi := by
  unfold StaticFn.checkpointOn
  split
  · exact h
  · exact h.drained _

theorem checkpointModuleOn_sorted {ni : Bool} (env : Env V) (tid : Nat) (fs : List Nat) (n : Nat)
    (sts : List (StaticFn V))
    (h : ∀ (f : Nat) (sf : StaticFn V), sts[f]? = some sf → sf.store.Sorted ni n sf.mi) :
    ∀ (f : Nat) (sf : StaticFn V), (checkpointModuleOn env tid fs sts).2[f]? = some sf →
      sf.store.Sorted ni n sf.mi := by
  induction fs generalizing sts with
  | nil => exact h
  | cons i fs ih =>
    unfold checkpointModuleOn
    cases hi : sts[i]? with
    | none => exact h
    | some si =>
      have hset : ∀ (f : Nat) (sf : StaticFn V), (sts.set i (si.checkpointOn env tid).2)[f]? = some sf →
          sf.store.Sorted ni n sf.mi := by
        intro f sf hf
        rcases set_cases hf with ⟨rfl, h2⟩ | h2
        · subst h2; exact StaticFn.checkpointOn_sorted _ _ _ _ (h i si hi)
        · exact h f sf h2
      simp only
      split
      · exact ih _ hset
      · exact hset

theorem Sys.Sorted.stepOn {env : Env V} {s : Sys V} (h : s.Sorted env.nightly) (tid : Nat) (op : Op V) :
    (s.stepOn env tid op).2.Sorted env.nightly := by
  have h' := h.step op
  obtain ⟨ho, hs⟩ := h
  cases op with
  | checkpoint o =>
    simp only [Sys.stepOn]
    rcases hobj : s.objs[o]? with _ | _ | obj
    · exact ⟨ho, hs⟩
    · exact ⟨ho, hs⟩
    · refine ⟨?_, hs⟩
      intro o' obj' h' m' sl' hm'
      simp only at h' ⊢
      rcases set_cases h' with ⟨rfl, h2⟩ | h2
      · simp at h2; subst h2
        exact Obj.checkpointOn_sorted env tid _ obj (ho o obj hobj) m' sl' hm'
      · exact ho o' obj' h2 m' sl' hm'
  | drop o pk =>
    simp only [Sys.stepOn, Sys.step] at h' ⊢
    rcases hobj : s.objs[o]? with _ | _ | obj
    · exact ⟨ho, hs⟩
    · exact ⟨ho, hs⟩
    · rw [hobj] at h'; exact h'
  | scheckpoint f =>
    simp only [Sys.stepOn]
    cases hf : s.statics[f]? with
    | none => exact ⟨ho, hs⟩
    | some sf =>
      refine ⟨ho, ?_⟩
      intro f' sf' hf'
      simp only at hf' ⊢
      rcases set_cases hf' with ⟨rfl, h2⟩ | h2
      · subst h2; exact StaticFn.checkpointOn_sorted _ _ _ _ (hs f sf hf)
      · exact hs f' sf' h2
  | sdrop f pk =>
    simp only [Sys.stepOn]
    cases hf : s.statics[f]? with
    | none => exact ⟨ho, hs⟩
    | some sf =>
      refine ⟨ho, ?_⟩
      intro f' sf' hf'
      simp only at hf' ⊢
      rcases set_cases hf' with ⟨rfl, h2⟩ | h2
      · subst h2
        unfold StaticFn.dropContextOn
        split
        · exact (hs f sf hf).drained _
        · exact StaticFn.checkpointOn_sorted _ _ _ _ (hs f sf hf)
      · exact hs f' sf' h2
  | mcheckpoint fs =>
    refine ⟨ho, ?_⟩
    exact checkpointModuleOn_sorted env tid fs _ s.statics hs
  | _ => exact h'

/-- What every state reached by a program with destructors satisfies; `done` are the operations executed. -/
structure OnInv (nightly : Bool) (done : List (Op V)) (s : Sys V) : Prop where
  inv : SysInv nightly done s.all s.world
  ret : ∀ e ∈ s.all, RetInv nightly s.world e
  chain : ∀ e ∈ s.all, ∀ b ∈ e.chain, b ∈ buildsOf done
  sorted : s.Sorted nightly

theorem OnInv.init (ni : Bool) (sts : List (MethodInfo V)) : OnInv ni [] (Sys.init sts) := by
  refine ⟨⟨by simp [Sys.init_all], by simp [Sys.init_all], by simp [Sys.init]⟩, by simp [Sys.init_all],
    by simp [Sys.init_all], ⟨by simp [Sys.init], ?_⟩⟩
  intro f sf hf
  simp only [Sys.init, List.getElem?_map] at hf
  cases hx : sts[f]? with
  | none => simp [hx] at hf
  | some mi => simp [hx] at hf; subst hf; exact Store.Sorted.new _ _ _

theorem OnInv.stepOn {env : Env V} {done : List (Op V)} {s : Sys V} (h : OnInv env.nightly done s) (tid : Nat)
    (op : Op V) : OnInv env.nightly (done ++ [op]) (s.stepOn env tid op).2 := by
  obtain ⟨ob, hE⟩ := stepOn_evo env tid s op
  exact ⟨h.inv.step hE, retInv_step h.inv h.ret hE, chain_step h.chain hE, h.sorted.stepOn tid op⟩

theorem OnInv.runOn {env : Env V} (ops : List (Nat × Op V)) {done : List (Op V)} {s : Sys V}
    (h : OnInv env.nightly done s) :
    ∃ pre, pre <+: ops ∧ OnInv env.nightly (done ++ pre.map (·.2)) (Sys.runOn env ops s).2 := by
  induction ops generalizing done s with
  | nil => exact ⟨[], List.prefix_refl _, by simpa [Sys.runOn] using h⟩
  | cons op ops ih =>
    have h' := h.stepOn op.1 op.2
    rcases hs : s.stepOn env op.1 op.2 with ⟨o, s'⟩
    rw [hs] at h'
    cases o with
    | aborted =>
      refine ⟨[op], ⟨ops, rfl⟩, ?_⟩
      simpa [Sys.runOn, hs] using h'
    | seen o =>
      obtain ⟨pre, ⟨l, hl⟩, hi⟩ := ih h'
      refine ⟨op :: pre, ⟨l, by simp [hl]⟩, ?_⟩
      simpa [Sys.runOn, hs] using hi
    | wrongThread =>
      obtain ⟨pre, ⟨l, hl⟩, hi⟩ := ih h'
      refine ⟨op :: pre, ⟨l, by simp [hl]⟩, ?_⟩
      simpa [Sys.runOn, hs] using hi

/-! ## Reading the threads off the builder calls -/

theorem matcher_tie (chain : List (Build V)) (tid : Nat) :
    (lastOf matcherOf .always chain).away tid = true ↔
      ∃ t, t ≠ tid ∧ lastOf matcherTie none chain = some t := by
  have hdec : ∀ b : Build V, matcherTie b = (matcherOf b).map fun m => match m with
      | .funcSt t _ => some t
      | _ => none := by
    intro b; cases b <;> rfl
  unfold lastOf
  have : chain.filterMap matcherTie = (chain.filterMap matcherOf).map fun m => match m with
      | .funcSt t _ => some t
      | _ => none := by
    rw [List.map_filterMap]; congr 1; funext b; exact hdec b
  rw [this, List.getLast?_map]
  rcases (chain.filterMap matcherOf).getLast? with _ | m
  · simp [Matcher.away]
  · cases m with
    | funcSt t f =>
      simp only [Matcher.away, Option.getD_some, Option.map_some, Option.some.injEq, bne_iff_ne, ne_eq]
      exact ⟨fun h => ⟨t, fun h' => h h'.symm, rfl⟩, fun ⟨u, hu, h⟩ h' => hu (h ▸ h'.symm)⟩
    | _ => simp [Matcher.away]

/-- The thread of a return function. -/
def Ret.tie : Ret V → Option Nat
  | .refMut (.mutSt t _ _) => some t
  | .static (.mutSt t _) _ => some t
  | .static (.onceSt t _) _ => some t
  | _ => none

theorem Ret.away_tie (r : Ret V) (tid : Nat) : r.away tid = true ↔ ∃ t, t ≠ tid ∧ r.tie = some t := by
  have aux : ∀ t : Nat, (tid != t) = true ↔ ∃ u, u ≠ tid ∧ some t = some u := by
    intro t
    simp only [Option.some.injEq, bne_iff_ne, ne_eq]
    exact ⟨fun h => ⟨t, fun h' => h h'.symm, rfl⟩, fun ⟨u, hu, h⟩ h' => hu (h ▸ h'.symm)⟩
  rcases r with r | r | ⟨r, p⟩
  · simp [Ret.away, Ret.tie]
  · cases r with
    | mutSt t f o => exact aux t
    | _ => simp [Ret.away, Ret.tie]
  · cases r with
    | mutSt t f => exact aux t
    | onceSt t f => exact aux t
    | _ => simp [Ret.away, Ret.tie]

/-- The same with a consumed `return_once_st` closure gone. -/
def Ret.tieUsed (used : Bool) : Ret V → Option Nat
  | .static (.onceSt t _) _ => if used then none else some t
  | r => r.tie

theorem return_tie (used : Bool) (kind : RetKind) (d : Ret V) (hd : d.tie = none) (chain : List (Build V)) :
    lastOf (returnTie used kind) none chain = (lastOf (retOf kind) d chain).tieUsed used := by
  have hdec : ∀ b : Build V, returnTie used kind b = (retOf kind b).map (Ret.tieUsed used) := by
    intro b; cases kind <;> cases b <;> simp [returnTie, retOf, Ret.tieUsed, Ret.tie]
  have hd' : d.tieUsed used = none := by
    rcases d with r | r | ⟨r, p⟩
    · exact hd
    · exact hd
    · cases r <;> first | exact hd | simp [Ret.tie] at hd
  unfold lastOf
  have : chain.filterMap (returnTie used kind) = (chain.filterMap (retOf kind)).map (Ret.tieUsed used) := by
    rw [List.map_filterMap]; congr 1; funext b; exact hdec b
  rw [this, List.getLast?_map]
  rcases (chain.filterMap (retOf kind)).getLast? with _ | m
  · simp [hd']
  · simp

theorem retDefault_tie (ni : Bool) (info : FnInfo V) : (retDefault ni info).tie = none := by
  unfold retDefault; split <;> rfl

/-- An answered call uses the closure of `return_once_st` up; the others stay. -/
theorem later_tie {r0 r : Ret V} (h : r0.later r) (hno : ∀ t f p, r0 ≠ .static (.onceSt t f) p) : r.tie = r0.tie := by
  rcases r0 with r0 | r0 | ⟨r0, p0⟩ <;> rcases r with r | r | ⟨r, p⟩ <;> simp only [Ret.later] at h
  · rfl
  · rcases r0 with (_ | _) | _ | _ | _ <;> rcases r with (_ | _) | _ | _ | _ <;>
      simp_all [RefMutRfunc.later, Ret.tie]
  · rcases r0 with _ | _ | _ | _ | _ | ⟨t, f⟩ <;> rcases r with _ | _ | _ | _ | _ | _ <;>
      simp_all [StaticRfunc.later, Ret.tie]

/-- An expectation has answered a call. -/
def usedIn (w : World V) (e : Expectation V) : Bool := !(served e.gid w.log).isEmpty

theorem OnInv.tie {ni : Bool} {done : List (Op V)} {s : Sys V} (h : OnInv ni done s) {e : Expectation V}
    (he : e ∈ s.all) : e.ret.tie = lastOf (returnTie (usedIn s.world e) e.info.kind) none e.chain := by
  have hL := h.inv.live e he
  have hR := (h.ret e he).2
  rw [return_tie _ _ (retDefault ni e.info) (retDefault_tie ni e.info)]
  rcases hr0 : lastOf (retOf e.info.kind) (retDefault ni e.info) e.chain with r0 | r0 | ⟨r0, p0⟩
  · rw [later_tie (r0 := .ref r0) (by rw [← hr0]; exact hL.ret.1) (by simp)]; rfl
  · rw [later_tie (r0 := .refMut r0) (by rw [← hr0]; exact hL.ret.1) (by simp)]; rfl
  · by_cases hs : ∃ t f, r0 = .onceSt t f
    · obtain ⟨t, f, rfl⟩ := hs
      have hp0 : p0 = false := by
        rcases Props.lastOf_origin (retOf e.info.kind) (retDefault ni e.info) e.chain with hd | ⟨b, _, hg⟩
        · rw [hr0] at hd; unfold retDefault at hd; split at hd <;> simp_all
        · rw [hr0] at hg
          generalize e.info.kind = kd at hg
          cases kd <;> cases b <;> simp_all [retOf]
      subst hp0
      rw [hr0] at hR
      have hf := (hR rfl).2 none
      unfold usedIn
      rcases hsv : served e.gid s.world.log with _ | ⟨x, xs⟩
      · rw [hsv] at hf; rw [hf]; rfl
      · rw [hsv, fold_onceSt] at hf; rw [hf]; rfl
    · rw [later_tie (r0 := .static r0 p0) (by rw [← hr0]; exact hL.ret.1) (by
        rintro t f p h; simp at h; exact hs ⟨t, f, h.1⟩)]
      cases r0 <;> first | rfl | exact absurd ⟨_, _, rfl⟩ hs

theorem OnInv.away {ni : Bool} {done : List (Op V)} {s : Sys V} (h : OnInv ni done s) {e : Expectation V}
    (he : e ∈ s.all) (tid : Nat) :
    e.away tid = true ↔ Away tid e.info.kind (usedIn s.world e) e.chain := by
  have hL := h.inv.live e he
  have hret := h.tie he
  unfold Expectation.away Away
  rw [Bool.or_eq_true, hL.matcher, matcher_tie, Ret.away_tie, hret]
  grind

end Mockall
