import Verif.Lemmas.Reference

/-! # Helper lemmas: whole programs follow the reference semantics -/

set_option linter.unusedSimpArgs false

namespace Mockall

open Spec

variable {V : Type}

section
variable {α β : Type} {R : α → β → Prop} {l : List α} {m : List β}

theorem Each.findSome {γ : Type} {f : α → Option γ} {g : β → Option γ} (h : Each R l m)
    (hfg : ∀ a b, R a b → f a = g b) : l.findSome? f = m.findSome? g := by
  induction h with
  | nil => rfl
  | cons h _ ih => simp only [List.findSome?_cons, hfg _ _ h, ih]

theorem Each.map {γ δ : Type} {S : γ → δ → Prop} {f : α → γ} {g : β → δ} (h : Each R l m)
    (hfg : ∀ a b, R a b → S (f a) (g b)) : Each S (l.map f) (m.map g) := by
  induction h with
  | nil => exact .nil
  | cons h _ ih => exact .cons (hfg _ _ h) ih

theorem Each.self {γ : Type} {f : γ → α} {g : γ → β} (l : List γ) (h : ∀ x, R (f x) (g x)) :
    Each R (l.map f) (l.map g) := by
  induction l with
  | nil => exact .nil
  | cons x _ ih => exact .cons (h x) ih

end

/-! ## Verification -/

theorem fault_sim {nightly : Bool} {fn base : FnInfo V} {n : Nat} {e : Expectation V} {r : Ref.Exp V}
    (h : RefSim nightly fn n e r) : e.fault base = r.fault base := by
  unfold Expectation.fault Expectation.drop Common.drop Ref.Exp.fault
  simp only [h.poison, h.count, Times.isSatisfied, h.range, Times.maximum, Times.minimum, subOne, h.matcher, display_eq]
  cases r.badMatcher with
  | true => rfl
  | false =>
    by_cases h1 : r.attempts < r.lo
    · have : ¬ r.attempts ≥ r.lo := by omega
      simp [h1, this]
    · have h1' : r.attempts ≥ r.lo := by omega
      by_cases h2 : r.attempts < r.top
      · simp [h1, h1', h2]
      · by_cases h3 : r.top = 0 <;> simp [h1, h1', h2, h3]

/-- The order in which a store is verified. -/
def Store.vorder (env : Env V) : Store V → List Key
  | .concrete _ => [0]
  | .generic g => (env.ord g).map (·.1)

theorem GMap.get_mem {g : GMap V} (h : (g.map (·.1)).Nodup) {x : Key × List (Expectation V)} (hx : x ∈ g) :
    GMap.get g x.1 = some x.2 := by
  induction g with
  | nil => simp at hx
  | cons y g ih =>
    simp only [List.map_cons, List.nodup_cons] at h
    unfold GMap.get
    rw [List.find?_cons]
    rcases List.mem_cons.mp hx with rfl | hx
    · simp
    · have : y.1 ≠ x.1 := fun e => h.1 (e ▸ List.mem_map_of_mem hx)
      simp only [this, beq_iff_eq, beq_eq_false_iff_ne.mpr this]
      exact ih h.2 hx

theorem pending_sim {env : Env V} (hf : env.Fair) {nightly : Bool} {n : Nat} {mi : MethodInfo V} {st : Store V}
    {m : Ref.Meth V} (h : MethSim nightly n mi st m) :
    Each (fun e r => ∃ fn, RefSim nightly fn n e r) (st.elems env) (m.pending (st.vorder env)) := by
  obtain ⟨h1, h2⟩ := h
  cases st with
  | concrete es =>
    simp only [Store.elems, Ref.Meth.pending, h1, h2.1, Bool.false_eq_true, ↓reduceIte]
    exact h2.2.imp fun _ _ h => ⟨_, h⟩
  | generic g =>
    obtain ⟨h2, h3, h4⟩ := h2
    simp only [Store.elems, Ref.Meth.pending, h1, h2, ↓reduceIte, Store.vorder]
    have : ∀ l : GMap V, (∀ x ∈ l, x ∈ g) →
        Each (fun e r => ∃ fn, RefSim nightly fn n e r) (l.flatMap (·.2)) ((l.map (·.1)).flatMap m.exps) := by
      intro l hl
      induction l with
      | nil => exact .nil
      | cons x l ih =>
        simp only [List.flatMap_cons, List.map_cons]
        refine .append ?_ (ih fun y hy => hl y (.tail _ hy))
        have := h4 x.1
        rw [GMap.get_mem h3 (hl x (.head _))] at this
        exact this.imp fun _ _ h => ⟨_, h⟩
    exact this _ fun x hx => (hf g).mem_iff.mp hx

theorem orders_sim {env : Env V} (hf : env.Fair) {nightly : Bool} {n : Nat} {mi : MethodInfo V} {st : Store V}
    {m : Ref.Meth V} (h : MethSim nightly n mi st m) : m.Orders (st.vorder env) := by
  intro hg
  obtain ⟨h1, h2⟩ := h
  cases st with
  | concrete es =>
    rw [h1, h2.1] at hg
    exact absurd hg (by simp)
  | generic g =>
    refine ⟨((hf g).map _).nodup_iff.mpr h2.2.1, fun k hk => ?_⟩
    have := (h2.2.2 k).length
    simp only [Store.vorder, List.mem_map]
    cases hx : GMap.get g k with
    | none =>
      rw [hx] at this
      exact absurd (List.eq_nil_of_length_eq_zero this.symm) hk
    | some es =>
      obtain ⟨a, b, rfl, _⟩ := GMap.get_split hx
      exact ⟨(k, es), (hf _).mem_iff.mpr (by simp), rfl⟩

/-- The store and the method agree on what is verified when the type arguments are ordered by `ks`. -/
def Lined (env : Env V) (mi : MethodInfo V) (st : Store V) (m : Ref.Meth V) (ks : List Key) : Prop :=
  m.mi = mi ∧ (st.elems env).findSome? (·.fault mi.base) = m.fault ks

theorem lined {env : Env V} (hf : env.Fair) {nightly : Bool} {n : Nat} {mi : MethodInfo V} {st : Store V}
    {m : Ref.Meth V} (h : MethSim nightly n mi st m) : Lined env mi st m (st.vorder env) := by
  refine ⟨h.1, ?_⟩
  unfold Ref.Meth.fault
  rw [h.1]
  exact (pending_sim hf h).findSome fun _ _ h => fault_sim h.choose_spec

theorem lined_new {env : Env V} (hf : env.Fair) (mi : MethodInfo V) (st : Store V) (ks : List Key) :
    Lined env mi st.drained (Ref.Meth.new mi) ks := by
  refine ⟨rfl, ?_⟩
  have h : st.drained.elems env = [] := by
    cases st with
    | concrete es => rfl
    | generic g =>
      have : env.ord [] = [] := (hf []).eq_nil
      simp [Store.drained, Store.elems, this]
  have h2 : (Ref.Meth.new mi : Ref.Meth V).pending ks = [] := by
    unfold Ref.Meth.pending Ref.Meth.new
    split <;> simp
  rw [h, Ref.Meth.fault, h2]
  rfl

/-- An object. -/
def ObjSim (nightly : Bool) (n : Nat) (o : Obj V) (ms : List (Ref.Meth V)) : Prop :=
  Each (fun s m => MethSim nightly n s.mi s.store m) o ms

/-- The order in which the methods of an object are verified. -/
def Obj.vorder (env : Env V) (o : Obj V) (i : Nat) : List Key := ((o[i]?).map (·.store.vorder env)).getD []

theorem obj_fault_sim {env : Env V} (hf : env.Fair) {nightly : Bool} {n : Nat} {o : Obj V} {ms : List (Ref.Meth V)}
    (h : ObjSim nightly n o ms) :
    ((o.order env).findSome? fun x => x.2.fault x.1) = Ref.fault (o.vorder env) ms := by
  have : ∀ j (ks : Nat → List Key), (∀ i, ks (i + j) = o.vorder env i) →
      ((o.order env).findSome? fun x => x.2.fault x.1) = (ms.zipIdx j).findSome? fun x => x.1.fault (ks x.2) := by
    unfold ObjSim at h
    induction h with
    | nil => intro j ks hk; rfl
    | cons h t ih =>
      intro j ks hk
      rename_i s m o ms
      simp only [Obj.order, List.flatMap_cons, List.findSome?_append, findSome?_map_pair, List.zipIdx_cons,
        List.findSome?_cons]
      have hl := (lined hf h).2
      have hk0 : ks j = s.store.vorder env := by simpa [Obj.vorder] using hk 0
      rw [hk0, ← hl]
      have := ih (j + 1) ks fun i => by
        have := hk (i + 1)
        rw [show i + (j + 1) = i + 1 + j by omega, this]
        simp [Obj.vorder]
      rw [← this]
      cases List.findSome? (fun x => Expectation.fault s.mi.base x) (s.store.elems env) <;> rfl
  exact this 0 _ fun i => rfl

theorem obj_checkpoint_sim {env : Env V} (hf : env.Fair) {nightly : Bool} {n : Nat} {o : Obj V} {ms : List (Ref.Meth V)}
    (h : ObjSim nightly n o ms) :
    ObjSim nightly n (o.checkpoint env false).2 (Ref.checkpoint (o.vorder env) ms) := by
  have : ∀ j (ks : Nat → List Key), (∀ i, ks (i + j) = o.vorder env i) →
      ObjSim nightly n (o.checkpoint env false).2
        (ms.mapIdx fun i m =>
          if i ≤ (ms.zipIdx j).findIdx (fun x => (x.1.fault (ks x.2)).isSome) then Ref.Meth.new m.mi else m) := by
    unfold ObjSim at h ⊢
    induction h with
    | nil => intro j ks hk; exact .nil
    | cons h t ih =>
      intro j ks hk
      rename_i s m o ms
      have hl := (lined hf h).2
      have hk0 : ks j = s.store.vorder env := by simpa [Obj.vorder] using hk 0
      simp only [Obj.checkpoint, dropAll_eq, List.zipIdx_cons, List.findIdx_cons, hk0, ← hl, List.mapIdx_cons,
        Nat.zero_le, ↓reduceIte]
      cases hx : List.findSome? (fun x => Expectation.fault s.mi.base x) (s.store.elems env) with
      | none =>
        simp only [verdict, Option.isSome_none, cond_false, Nat.add_le_add_iff_right]
        refine .cons ?_ (ih (j + 1) ks fun i => ?_)
        · exact h.drained n
        · have := hk (i + 1)
          rw [show i + (j + 1) = i + 1 + j by omega, this]
          simp [Obj.vorder]
      | some p =>
        simp only [verdict, Option.isSome_some, cond_true]
        refine .cons (h.drained n) ?_
        have hm : ∀ l : List (Ref.Meth V), l.mapIdx (fun _ m => m) = l := fun l => by
          apply List.ext_getElem? ; simp
        simpa [hm] using t
  exact this 0 _ fun i => rfl


/-- A static method. -/
def StatSim (nightly : Bool) (n : Nat) (f : StaticFn V) (m : Ref.Meth V × Bool) : Prop :=
  MethSim nightly n f.mi f.store m.1 ∧ f.poison = m.2

theorem scheckpoint_sim {env : Env V} {nightly : Bool} {n : Nat} {f : StaticFn V}
    {m : Ref.Meth V × Bool} {ks : List Key} (h : StatSim nightly n f m) (hl : Lined env f.mi f.store m.1 ks) :
    (f.checkpoint env false).1 = ((Ref.scheckpoint ks m).1, false) ∧
    StatSim nightly n (f.checkpoint env false).2 (Ref.scheckpoint ks m).2 := by
  rw [StaticFn.checkpoint_eq]
  unfold Ref.scheckpoint
  rw [← h.2]
  cases hp : f.poison with
  | true => exact ⟨rfl, h⟩
  | false =>
    simp only [Bool.false_eq_true, ↓reduceIte]
    refine ⟨?_, h.1.drained n, rfl⟩
    rw [hl.2]
    cases m.1.fault ks <;> rfl

theorem mcheckpoint_sim {env : Env V} (hf : env.Fair) {nightly : Bool} {n : Nat} {ks : Nat → List Key} (fs : List Nat)
    {fss : List (StaticFn V)} {ms : List (Ref.Meth V × Bool)} (h : Each (StatSim nightly n) fss ms)
    (hl : ∀ (i : Nat) (f : StaticFn V) (m : Ref.Meth V × Bool), fss[i]? = some f → ms[i]? = some m → Lined env f.mi f.store m.1 (ks i)) :
    (checkpointModule env fs fss).1 = (Ref.mcheckpoint ks fs ms).1.map (·, false) ∧
    Each (StatSim nightly n) (checkpointModule env fs fss).2 (Ref.mcheckpoint ks fs ms).2 := by
  induction fs generalizing fss ms with
  | nil => exact ⟨rfl, h⟩
  | cons i fs ih =>
    unfold checkpointModule Ref.mcheckpoint
    rcases h.get i with ⟨h1, h2⟩ | ⟨f, m, h1, h2, h3⟩
    · rw [h1, h2]
      exact ⟨rfl, h⟩
    · rw [h1, h2]
      have hs := scheckpoint_sim h3 (hl i f m h1 h2)
      rcases hr : Ref.scheckpoint (ks i) m with ⟨r, m'⟩
      rw [hr] at hs
      simp only [hs.1, hr]
      cases r with
      | error p => exact ⟨rfl, h.set i hs.2⟩
      | ok u =>
        refine ih (h.set i hs.2) ?_
        intro j f' m'' hj1 hj2
        by_cases hji : i = j
        · subst hji
          have hlt : i < fss.length := (List.getElem?_eq_some_iff.mp h1).1
          have hlt2 : i < ms.length := (List.getElem?_eq_some_iff.mp h2).1
          simp only [List.getElem?_set_self hlt, Option.some.injEq] at hj1
          simp only [List.getElem?_set_self hlt2, Option.some.injEq] at hj2
          subst hj1 hj2
          unfold Ref.scheckpoint at hr
          have hp := h3.2
          cases hb : m.2 with
          | true => simp [hb] at hr
          | false =>
            rw [hb] at hp hr
            simp only [Bool.false_eq_true, ↓reduceIte, Prod.mk.injEq] at hr
            rw [StaticFn.checkpoint_eq, hp, ← hr.2]
            simp only [Bool.false_eq_true, ↓reduceIte]
            rw [h3.1.1]
            exact lined_new hf _ _ _
        · rw [List.getElem?_set_ne hji] at hj1 hj2
          exact hl j f' m'' hj1 hj2

/-! ## Programs -/

/-- A program. -/
structure SysSim (nightly : Bool) (n : Nat) (s : Sys V) (r : Ref.St V) : Prop where
  objs : Each (fun o ms => (o = none ∧ ms = none) ∨ ∃ o' ms', o = some o' ∧ ms = some ms' ∧ ObjSim nightly n o' ms')
    s.objs r.objs
  statics : Each (StatSim nightly n) s.statics r.statics
  seqs : RefSeqs s.world.seqs r.joined r.turn

theorem ObjSim.mono {nightly : Bool} {n k : Nat} {o : Obj V} {ms : List (Ref.Meth V)} (h : ObjSim nightly n o ms)
    (hk : n ≤ k) : ObjSim nightly k o ms := Each.imp h fun _ _ h => h.mono hk

theorem SysSim.mono {nightly : Bool} {n k : Nat} {s : Sys V} {r : Ref.St V} (h : SysSim nightly n s r) (hk : n ≤ k) :
    SysSim nightly k s r where
  objs := h.objs.imp fun _ _ h => h.imp_right fun ⟨a, b, h1, h2, h3⟩ => ⟨a, b, h1, h2, h3.mono hk⟩
  statics := h.statics.imp fun _ _ h => ⟨h.1.mono hk, h.2⟩
  seqs := h.seqs

theorem SysSim.init (nightly : Bool) (sts : List (MethodInfo V)) :
    SysSim nightly 0 (Sys.init sts) (Ref.St.init sts) where
  objs := .nil
  statics := Each.self sts fun mi => ⟨MethSim.new nightly 0 mi, rfl⟩
  seqs := fun _ => rfl

/-- The order in which type arguments are verified by an operation. -/
def Sys.vorder (env : Env V) (s : Sys V) : Op V → Nat → List Key
  | .checkpoint o | .drop o _ => Obj.vorder env (((s.objs[o]?).getD none).getD [])
  | _ => fun i => ((s.statics[i]?).map (·.store.vorder env)).getD []

theorem set_same {α : Type} {l : List α} {i : Nat} {a : α} (h : l[i]? = some a) : l.set i a = l := by
  apply List.ext_getElem?
  intro j
  by_cases hj : i = j
  · subst hj
    rw [List.getElem?_set_self (List.getElem?_eq_some_iff.mp h).1, h]
  · rw [List.getElem?_set_ne hj]

theorem expectMatch_lift (cx : Cx V) (fn : FnInfo V) (args : List V) (r : Except Panic V) :
    expectMatch cx fn args (liftRes r) = r := by
  cases r <;> rfl

theorem step_sim {env : Env V} (hf : env.Fair) {n : Nat} (hn : n < usizeMax) {s : Sys V} {r : Ref.St V}
    (h : SysSim env.nightly n s r) (op : Op V) :
    (s.step env op).1 = (r.step env.nightly env.dbg (s.vorder env op) op).1 ∧
    SysSim env.nightly (n + 1) (s.step env op).2 (r.step env.nightly env.dbg (s.vorder env op) op).2 := by
  have hm := h.mono (Nat.le_succ n)
  have hlined : ∀ (i : Nat) (f : StaticFn V) (m : Ref.Meth V × Bool), s.statics[i]? = some f → r.statics[i]? = some m →
      Lined env f.mi f.store m.1 (((s.statics[i]?).map (·.store.vorder env)).getD []) := by
    intro i f m h1 h2
    rcases h.statics.get i with ⟨h3, _⟩ | ⟨f', m', h3, h4, h5⟩
    · rw [h1] at h3; cases h3
    · rw [h1] at h3; rw [h2] at h4
      cases h3; cases h4
      rw [h1]
      exact lined hf h5.1
  cases op with
  | new ms =>
    refine ⟨rfl, ?_, hm.statics, hm.seqs⟩
    exact hm.objs.append (.cons (.inr ⟨_, _, rfl, rfl, Each.self ms fun mi => MethSim.new _ _ mi⟩) .nil)
  | expect o m k bs =>
    simp only [Sys.step, Ref.St.step]
    rcases h.objs.get o with ⟨h1, h2⟩ | ⟨a, b, h1, h2, ⟨rfl, rfl⟩ | ⟨o', ms', rfl, rfl, h3⟩⟩
    · simp only [h1, h2]; exact ⟨trivial, hm⟩
    · simp only [h1, h2]; exact ⟨trivial, hm⟩
    · simp only [h1, h2, Obj.expect]
      rcases Each.get h3 m with ⟨h4, h5⟩ | ⟨sl, x, h4, h5, h6⟩
      · simp only [h4, h5]; exact ⟨trivial, hm⟩
      · simp only [h4, h5]
        have hs := store_expect_sim k bs (h6.mono (Nat.le_succ n)) h.seqs
        refine ⟨by rw [hs.1], ?_, hm.statics, hs.2.2⟩
        exact hm.objs.set o (.inr ⟨_, _, rfl, rfl, (h3.mono (Nat.le_succ n)).set m hs.2.1⟩)
  | call o m k tid args upd =>
    simp only [Sys.step, Ref.St.step]
    rcases h.objs.get o with ⟨h1, h2⟩ | ⟨a, b, h1, h2, ⟨rfl, rfl⟩ | ⟨o', ms', rfl, rfl, h3⟩⟩
    · simp only [h1, h2]; exact ⟨trivial, hm⟩
    · simp only [h1, h2]; exact ⟨trivial, hm⟩
    · simp only [h1, h2, Obj.call]
      rcases Each.get h3 m with ⟨h4, h5⟩ | ⟨sl, x, h4, h5, h6⟩
      · simp only [h4, h5]; exact ⟨trivial, hm⟩
      · simp only [h4, h5]
        have hs := store_call_sim (cx := ⟨env.nightly, tid, env.dbg, upd⟩) k args h6 h.seqs hn
        simp only at hs
        cases hd : Ref.dispatch ⟨env.nightly, x.fn k, env.dbg, tid, args, upd⟩ r.turn (x.get k) with
        | none =>
          simp only [hd] at hs ⊢
          rw [hs]
          have hset : o'.set m sl = o' := set_same h4
          have hset2 : s.objs.set o (some o') = s.objs := set_same h1
          simp only [hset, hset2]
          refine ⟨?_, hm⟩
          simp only [expectMatch, Obs.value.injEq, Except.error.injEq, Panic.noMatch.injEq]
          rw [h6.fn]
          exact callDesc_eq ..
        | some q =>
          simp only [hd] at hs ⊢
          refine ⟨by rw [hs.1, expectMatch_lift], ?_, hm.statics, hs.2.2⟩
          exact hm.objs.set o (.inr ⟨_, _, rfl, rfl, (h3.mono (Nat.le_succ n)).set m hs.2.1⟩)
  | checkpoint o =>
    simp only [Sys.step, Ref.St.step, Sys.vorder]
    rcases h.objs.get o with ⟨h1, h2⟩ | ⟨a, b, h1, h2, ⟨rfl, rfl⟩ | ⟨o', ms', rfl, rfl, h3⟩⟩
    · simp only [h1, h2]; exact ⟨trivial, hm⟩
    · simp only [h1, h2]; exact ⟨trivial, hm⟩
    · simp only [h1, h2, Obj.checkpoint_eq, Option.getD_some]
      refine ⟨?_, ?_, hm.statics, hm.seqs⟩
      · rw [obj_fault_sim hf h3]
        cases Ref.fault (o'.vorder env) ms' <;> rfl
      · exact hm.objs.set o (.inr ⟨_, _, rfl, rfl, obj_checkpoint_sim hf (h3.mono (Nat.le_succ n))⟩)
  | drop o pk =>
    simp only [Sys.step, Ref.St.step, Sys.vorder]
    rcases h.objs.get o with ⟨h1, h2⟩ | ⟨a, b, h1, h2, ⟨rfl, rfl⟩ | ⟨o', ms', rfl, rfl, h3⟩⟩
    · simp only [h1, h2]; exact ⟨trivial, hm⟩
    · simp only [h1, h2]; exact ⟨trivial, hm⟩
    · simp only [h1, h2, Option.getD_some]
      refine ⟨?_, hm.objs.set o (.inl ⟨rfl, rfl⟩), hm.statics, hm.seqs⟩
      cases pk with
      | true => simp [Obj.drop_panicking]
      | false =>
        simp only [Obj.drop_eq, Bool.false_eq_true, ↓reduceIte]
        rw [obj_fault_sim hf h3]
        cases Ref.fault (o'.vorder env) ms' <;> rfl
  | sexpect f k bs =>
    simp only [Sys.step, Ref.St.step]
    rcases h.statics.get f with ⟨h1, h2⟩ | ⟨sf, ⟨x, pz⟩, h1, h2, h3⟩
    · simp only [h1, h2]; exact ⟨trivial, hm⟩
    · simp only [h1, h2]
      have hp : sf.poison = pz := h3.2
      cases pz with
      | true =>
        have hset : s.statics.set f sf = s.statics := set_same h1
        simp only [StaticFn.expect, hp, ↓reduceIte, hset]
        exact ⟨trivial, hm⟩
      | false =>
        simp only [StaticFn.expect, hp, Bool.false_eq_true, ↓reduceIte]
        have hs := store_expect_sim k bs (h3.1.mono (Nat.le_succ n)) h.seqs
        refine ⟨by rw [hs.1], hm.objs, ?_, hs.2.2⟩
        refine hm.statics.set f ⟨hs.2.1, ?_⟩
        simp only [hs.1]
        cases (Ref.Exp.configure {} r.joined bs).1 <;> rfl
  | scall f k tid args =>
    simp only [Sys.step, Ref.St.step]
    rcases h.statics.get f with ⟨h1, h2⟩ | ⟨sf, ⟨x, pz⟩, h1, h2, h3⟩
    · simp only [h1, h2]; exact ⟨trivial, hm⟩
    · simp only [h1, h2]
      have hp : sf.poison = pz := h3.2
      cases pz with
      | true =>
        have hset : s.statics.set f sf = s.statics := set_same h1
        simp only [StaticFn.call, hp, ↓reduceIte, hset]
        exact ⟨trivial, hm⟩
      | false =>
        simp only [StaticFn.call, hp, Bool.false_eq_true, ↓reduceIte]
        have hs := store_call_sim (cx := ⟨env.nightly, tid, env.dbg, id⟩) k args h3.1 h.seqs hn
        simp only at hs
        cases hd : Ref.dispatch ⟨env.nightly, x.fn k, env.dbg, tid, args, id⟩ r.turn (x.get k) with
        | none =>
          simp only [hd] at hs ⊢
          rw [hs]
          have hsf : { sf with store := sf.store, poison := false } = sf := by rw [← hp]
          have hset : s.statics.set f sf = s.statics := set_same h1
          simp only [hsf, hset]
          refine ⟨?_, hm⟩
          simp only [expectMatch, Obs.value.injEq, Except.error.injEq, Panic.noMatch.injEq]
          rw [h3.1.fn]
          exact callDesc_eq ..
        | some q =>
          simp only [hd] at hs ⊢
          refine ⟨by rw [hs.1, expectMatch_lift], hm.objs, ?_, hs.2.2⟩
          refine hm.statics.set f ⟨hs.2.1, ?_⟩
          simp only [hs.1]
          cases q.1 <;> rfl
  | scheckpoint f =>
    simp only [Sys.step, Ref.St.step, Sys.vorder]
    rcases h.statics.get f with ⟨h1, h2⟩ | ⟨sf, x, h1, h2, h3⟩
    · simp only [h1, h2]; exact ⟨trivial, hm⟩
    · have hs := scheckpoint_sim (n := n + 1) ⟨h3.1.mono (Nat.le_succ n), h3.2⟩ (hlined f sf x h1 h2)
      simp only [h2]
      simp only [h1] at hs ⊢
      exact ⟨by rw [hs.1], hm.objs, hm.statics.set f hs.2, hm.seqs⟩
  | sdrop f pk =>
    simp only [Sys.step, Ref.St.step, Sys.vorder]
    rcases h.statics.get f with ⟨h1, h2⟩ | ⟨sf, x, h1, h2, h3⟩
    · simp only [h1, h2]; exact ⟨trivial, hm⟩
    · have hs := scheckpoint_sim (n := n + 1) ⟨h3.1.mono (Nat.le_succ n), h3.2⟩ (hlined f sf x h1 h2)
      simp only [h2]
      simp only [h1] at hs ⊢
      cases pk with
      | true =>
        simp only [StaticFn.dropContext, ↓reduceIte, dropAll_panicking]
        exact ⟨trivial, hm.objs, hm.statics.set f ⟨h3.1.drained _, rfl⟩, hm.seqs⟩
      | false =>
        simp only [StaticFn.dropContext, Bool.false_eq_true, ↓reduceIte]
        exact ⟨by rw [hs.1], hm.objs, hm.statics.set f hs.2, hm.seqs⟩
  | mcheckpoint fs =>
    simp only [Sys.step, Ref.St.step]
    have hs := mcheckpoint_sim hf fs hm.statics
      (ks := fun i => ((s.statics[i]?).map (·.store.vorder env)).getD []) hlined
    refine ⟨?_, hm.objs, hs.2, hm.seqs⟩
    simp only [hs.1, Sys.vorder]
    cases (Ref.mcheckpoint (fun i => ((s.statics[i]?).map (·.store.vorder env)).getD []) fs r.statics).1 <;> rfl

theorem orders_step {env : Env V} (hf : env.Fair) {n : Nat} {s : Sys V} {r : Ref.St V}
    (h : SysSim env.nightly n s r) (op : Op V) : r.Orders op (s.vorder env op) := by
  have ho : ∀ o i : Nat, ∀ (m : Ref.Meth V), (((r.objs[o]?).getD none).getD [])[i]? = some m →
      m.Orders (Obj.vorder env (((s.objs[o]?).getD none).getD []) i) := by
    intro o i m hi
    rcases h.objs.get o with ⟨h1, h2⟩ | ⟨a, b, h1, h2, ⟨rfl, rfl⟩ | ⟨o', ms', rfl, rfl, h3⟩⟩
    · simp [h2] at hi
    · simp [h2] at hi
    · simp only [h1, h2, Option.getD_some] at hi ⊢
      rcases Each.get h3 i with ⟨h4, h5⟩ | ⟨sl, x, h4, h5, h6⟩
      · rw [h5] at hi; cases hi
      · rw [h5] at hi; cases hi
        simp only [Obj.vorder, h4, Option.map_some, Option.getD_some]
        exact orders_sim hf h6
  have hs : ∀ (i : Nat) (m : Ref.Meth V), (r.statics.map (·.1))[i]? = some m →
      m.Orders (((s.statics[i]?).map (·.store.vorder env)).getD []) := by
    intro i m hi
    rcases h.statics.get i with ⟨h1, h2⟩ | ⟨sf, x, h1, h2, h3⟩
    · simp [h2] at hi
    · simp only [List.getElem?_map, h2, Option.map_some, Option.some.injEq] at hi
      subst hi
      simp only [h1, Option.map_some, Option.getD_some]
      exact orders_sim hf h3.1
  intro i m hi
  cases op with
  | checkpoint o => exact ho o i m hi
  | drop o pk => exact ho o i m hi
  | scheckpoint f => exact hs i m hi
  | sdrop f pk => exact hs i m hi
  | mcheckpoint fs => exact hs i m hi
  | new | expect | call | sexpect | scall => simp [Ref.St.verified] at hi

theorem runs_sim {env : Env V} (hf : env.Fair) (ops : List (Op V)) {n : Nat} {s : Sys V} {r : Ref.St V}
    (h : SysSim env.nightly n s r) (hn : n + ops.length ≤ usizeMax) :
    Ref.Runs env.nightly env.dbg r ops (Sys.run env ops s).1 := by
  induction ops generalizing n s r with
  | nil => exact .nil r
  | cons op ops ih =>
    simp only [List.length_cons] at hn
    have hs := step_sim hf (by omega) h op
    have := Ref.Runs.cons r op (s.vorder env op) (orders_step hf h op) (ih hs.2 (by omega))
    rw [← hs.1] at this
    exact this

end Mockall
