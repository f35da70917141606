import Verif.Lemmas.SysInv
import Verif.Lemmas.Scan

/-! # Helper lemmas: the expectations a call is matched against -/

set_option linter.unusedSimpArgs false

namespace Mockall

open Spec

variable {V : Type}

/-- Which mocked function is called: an instance method of an object, or a static function; with
the instantiation of its type parameters. -/
inductive Callee
  | inst (o m : Nat) (k : Key)
  | stat (f : Nat) (k : Key)
  deriving DecidableEq

/-- The expectations of one instantiation, in storage order. -/
def Store.target (k : Key) : Store V → List (Expectation V)
  | .concrete es => es
  | .generic m => (GMap.get m k).getD []

/-- What the generator knows about the callee. -/
def Sys.infoOf (s : Sys V) : Callee → Option (MethodInfo V)
  | .inst o m _ =>
    match s.objs[o]? with
    | some (some obj) => (obj[m]?).map (·.mi)
    | _ => none
  | .stat f _ => (s.statics[f]?).map (·.mi)

/-- The expectations on the callee, in storage order. -/
def Sys.target (s : Sys V) : Callee → List (Expectation V)
  | .inst o m k =>
    match s.objs[o]? with
    | some (some obj) =>
      match obj[m]? with
      | some sl => sl.store.target k
      | none => []
    | _ => []
  | .stat f k =>
    match s.statics[f]? with
    | some sf => sf.store.target k
    | none => []

/-- The operation of calling the callee. -/
def Callee.op (c : Callee) (tid : Nat) (args : List V) (upd : V → V) : Op V :=
  match c with
  | .inst o m k => .call o m k tid args upd
  | .stat f k => .scall f k tid args

def Callee.key : Callee → Key
  | .inst _ _ k => k
  | .stat _ k => k

theorem GMap.get_put_same (m : GMap V) (k : Key) (es : List (Expectation V)) :
    GMap.get (GMap.put m k es) k = some es := by
  induction m with
  | nil => simp [GMap.put, GMap.get]
  | cons p m ih =>
    obtain ⟨k', v⟩ := p
    by_cases hk : k' = k
    · subst hk; simp [GMap.put, GMap.get]
    · have hb : (k' == k) = false := by simp [hk]
      simp only [GMap.put, hb, Bool.false_eq_true, ↓reduceIte]
      unfold GMap.get at ih ⊢
      rw [List.find?_cons]
      simp only [hb]
      exact ih

theorem GMap.get_put_other (m : GMap V) {k k' : Key} (h : k ≠ k') (es : List (Expectation V)) :
    GMap.get (GMap.put m k es) k' = GMap.get m k' := by
  induction m with
  | nil =>
    have : (k == k') = false := by simp [h]
    simp [GMap.put, GMap.get, h]
  | cons p m ih =>
    obtain ⟨k1, v⟩ := p
    by_cases hk : k1 = k
    · subst hk
      have hb : (k1 == k') = false := by simp [h]
      simp [GMap.put, GMap.get, hb]
    · have hb : (k1 == k) = false := by simp [hk]
      simp only [GMap.put, hb, Bool.false_eq_true, ↓reduceIte]
      by_cases hk' : k1 = k'
      · subst hk'; simp [GMap.get]
      · have hb' : (k1 == k') = false := by simp [hk']
        unfold GMap.get at ih ⊢
        rw [List.find?_cons, List.find?_cons]
        simp only [hb']
        exact ih

theorem GMap.put_get {m : GMap V} {k : Key} {es : List (Expectation V)} (h : GMap.get m k = some es) :
    GMap.put m k es = m := by
  obtain ⟨a, b, h1, h2⟩ := GMap.get_split h
  rw [h2, ← h1]

/-- A call on a store is a scan of the target list. -/
theorem Store.call_target (cx : Cx V) (mi : MethodInfo V) (k : Key) (args : List V) (s : Store V)
    (w : World V) :
    let r := Expectations.call cx (mi.fn k) args (s.target k) w
    (s.call cx mi k args w).1 = r.1 ∧ (s.call cx mi k args w).2.2 = r.2.2 ∧
    (s.call cx mi k args w).2.1.target k = r.2.1 := by
  cases s with
  | concrete es => exact ⟨rfl, rfl, rfl⟩
  | generic m =>
    simp only [Store.call, Store.target]
    cases hg : GMap.get m k with
    | none => simp [Expectations.call, callScan, Store.target, hg]
    | some es =>
      simp only [Option.getD_some, true_and]
      simp [GMap.get_put_same]

theorem Store.call_target_other (cx : Cx V) (mi : MethodInfo V) {k k' : Key} (h : k ≠ k') (args : List V)
    (m : GMap V) (w : World V) :
    (Store.call cx mi k args (.generic m) w).2.1.target k' = Store.target k' (.generic m) := by
  simp only [Store.call, Store.target]
  cases hg : GMap.get m k with
  | none => rfl
  | some es => simp [GMap.get_put_other m h]

/-- If nothing in the target list changes, the store does not change. -/
theorem Store.call_same (cx : Cx V) (mi : MethodInfo V) (k : Key) (args : List V) (s : Store V)
    (w : World V) (h : (Expectations.call cx (mi.fn k) args (s.target k) w).2.1 = s.target k) :
    (s.call cx mi k args w).2.1 = s := by
  cases s with
  | concrete es =>
    simp only [Store.call]
    exact congrArg Store.concrete h
  | generic m =>
    simp only [Store.call]
    cases hg : GMap.get m k with
    | none => rfl
    | some es =>
      simp only [Store.target, hg, Option.getD_some] at h
      simp only [h, GMap.put_get hg]

/-- Gids never change and stay in place during a call. -/
theorem callScan_gids (cx : Cx V) (info : FnInfo V) (args : List V) (n : Nat) (es : List (Expectation V))
    (w : World V) : (callScan cx info args n es w).2.1.map (·.gid) = es.map (·.gid) := by
  have h := callScan_evo cx info args n es w
  generalize callScan cx info args n es w = o at *
  generalize o.1 = r at *
  generalize o.2.1 = l' at *
  generalize o.2.2 = w' at *
  cases h with
  | none => rfl
  | early => rfl
  | pred hc hm =>
    obtain ⟨l1, l2, rfl, rfl⟩ := hc
    have := Expectation.matches_err hm
    simp [this]
  | @hit e l' r hc hm hr =>
    obtain ⟨l1, l2, rfl, rfl⟩ := hc
    have := Expectation.call_frame cx info args e w
    simp only at this
    have hg : (e.call cx info args w).2.1.gid = e.gid := by rw [this]
    simp [hg]

/-- Nor does the function an expectation belongs to. -/
theorem callScan_infos (cx : Cx V) (info : FnInfo V) (args : List V) (n : Nat) (es : List (Expectation V))
    (w : World V) : (callScan cx info args n es w).2.1.map (·.info) = es.map (·.info) := by
  have h := callScan_evo cx info args n es w
  generalize callScan cx info args n es w = o at *
  generalize o.1 = r at *
  generalize o.2.1 = l' at *
  generalize o.2.2 = w' at *
  cases h with
  | none => rfl
  | early => rfl
  | pred hc hm =>
    obtain ⟨l1, l2, rfl, rfl⟩ := hc
    have := Expectation.matches_err hm
    simp [this]
  | @hit e l' r hc hm hr =>
    obtain ⟨l1, l2, rfl, rfl⟩ := hc
    have := Expectation.call_frame cx info args e w
    simp only at this
    have hg : (e.call cx info args w).2.1.info = e.info := by rw [this]
    simp [hg]

/-- Which kind of store it is. -/
def Store.isGeneric : Store V → Bool
  | .concrete _ => false
  | .generic _ => true

/-- With the `nightly` feature and a return type that has a default, an expectation without return value
setting stays as it is. -/
def Expectation.DfltOk (nightly : Bool) (e : Expectation V) : Prop :=
  nightly = true → lastOf (retOf e.info.kind) (retDefault nightly e.info) e.chain = .static .dflt false →
    ∀ v, e.info.default = some v → e.ret = .static .dflt false

/-- A call by its own function keeps it so. -/
theorem callScan_dflt (cx : Cx V) (info : FnInfo V) (args : List V) (n : Nat) (es : List (Expectation V))
    (w : World V) (hi : ∀ i ∈ es.map (·.info), i = info) (h0 : ∀ e ∈ es, e.DfltOk cx.nightly) :
    ∀ e ∈ (callScan cx info args n es w).2.1, e.DfltOk cx.nightly := by
  have h := callScan_evo cx info args n es w
  generalize callScan cx info args n es w = o at *
  generalize o.1 = r at *
  generalize o.2.1 = l' at *
  generalize o.2.2 = w' at *
  cases h with
  | none => exact h0
  | early => exact h0
  | @pred e e' p l' hc hm =>
    obtain ⟨l1, l2, rfl, rfl⟩ := hc
    have he' := Expectation.matches_err hm
    intro x hx
    have hcase : x ∈ l1 ++ e :: l2 ∨ x = e' := by simp at hx ⊢; grind
    rcases hcase with hx | rfl
    · exact h0 x hx
    · rw [he']; exact h0 e (by simp)
  | @hit e l' r hc hm hr =>
    obtain ⟨l1, l2, rfl, rfl⟩ := hc
    have hF := Expectation.call_frame cx info args e w
    simp only at hF
    have hie : e.info = info := hi _ (List.mem_map_of_mem (by simp))
    intro x hx
    have hcase : x ∈ l1 ++ e :: l2 ∨ x = (e.call cx info args w).2.1 := by simp at hx ⊢; grind
    rcases hcase with hx | rfl
    · exact h0 x hx
    · intro hn hr0 v hv
      have h1 : (e.call cx info args w).2.1.info = e.info := by rw [hF]
      have h2 : (e.call cx info args w).2.1.chain = e.chain := by rw [hF]
      rw [h1] at hr0 hv
      rw [h2] at hr0
      have hret := h0 e (by simp) hn hr0 v hv
      rw [hie] at hv
      rcases Expectation.call_cases cx info args e w with ⟨p, _, h⟩ | ⟨_, h⟩
      · rw [h]; exact hret
      · rw [h]
        simp [Expectation.ret_call, hret, StaticRfunc.callMut, returnDefault, hn, hv]

/-- The instantiations with a list of their own. -/
def Store.keys : Store V → List Key
  | .concrete _ => []
  | .generic m => m.map (·.1)

theorem GMap.put_keys (m : GMap V) (k : Key) (es : List (Expectation V)) (h : (m.map (·.1)).Nodup) :
    ((GMap.put m k es).map (·.1)).Nodup ∧ ∀ x ∈ (GMap.put m k es).map (·.1), x = k ∨ x ∈ m.map (·.1) := by
  induction m with
  | nil => simp [GMap.put]
  | cons p m ih =>
    rw [List.map_cons, List.nodup_cons] at h
    obtain ⟨h1, h2⟩ := ih h.2
    unfold GMap.put
    by_cases hk : p.1 = k
    · subst hk
      simp only [beq_self_eq_true, ↓reduceIte, List.map_cons, List.nodup_cons]
      exact ⟨h, fun x hx => .inr hx⟩
    · have hb : (p.1 == k) = false := by simp [hk]
      simp only [hb, Bool.false_eq_true, ↓reduceIte, List.map_cons, List.nodup_cons]
      refine ⟨⟨fun hx => ?_, h1⟩, fun x hx => ?_⟩
      · rcases h2 _ hx with hx | hx
        · exact hk hx
        · exact h.1 hx
      · rcases List.mem_cons.mp hx with rfl | hx
        · right; simp
        · rcases h2 x hx with hx | hx
          · exact .inl hx
          · right; exact List.mem_cons_of_mem _ hx

/-- A store whose lists are in declaration order and belong to the right function. -/
structure Store.Sorted (nightly : Bool) (fresh : Nat) (mi : MethodInfo V) (s : Store V) : Prop where
  generic : s.isGeneric = mi.generic
  order : ∀ k, ((s.target k).map (·.gid)).Pairwise (· < ·) ∧ ∀ g ∈ (s.target k).map (·.gid), g < fresh
  info : ∀ k, ∀ i ∈ (s.target k).map (·.info), i = mi.fn k
  dflt : ∀ k, ∀ e ∈ s.target k, e.DfltOk nightly
  keys : s.keys.Nodup

theorem Store.Sorted.mono {ni : Bool} {n m : Nat} {mi : MethodInfo V} {s : Store V} (h : s.Sorted ni n mi)
    (hle : n ≤ m) : s.Sorted ni m mi :=
  ⟨h.generic, fun k => ⟨(h.order k).1, fun g hg => Nat.lt_of_lt_of_le ((h.order k).2 g hg) hle⟩, h.info,
    h.dflt, h.keys⟩

theorem Store.Sorted.new (ni : Bool) (mi : MethodInfo V) (n : Nat) : (Store.new mi).Sorted ni n mi := by
  unfold Store.new
  split <;> rename_i hg <;> refine ⟨?_, fun k => ?_, fun k => ?_, fun k => ?_, ?_⟩ <;>
    simp [Store.target, GMap.get, Store.isGeneric, Store.keys, hg]

theorem Store.Sorted.drained {ni : Bool} {s : Store V} {mi : MethodInfo V} {n : Nat} (h : s.Sorted ni n mi)
    (m : Nat) : s.drained.Sorted ni m mi := by
  have hg := h.generic
  cases s <;> refine ⟨?_, fun k => ?_, fun k => ?_, fun k => ?_, ?_⟩ <;>
    first | exact hg | simp [Store.target, GMap.get, Store.drained, Store.keys]

/-- A method without type arguments is one function. -/
theorem MethodInfo.fn_concrete {mi : MethodInfo V} (h : mi.generic = false) (k k' : Key) : mi.fn k = mi.fn k' := by
  simp [MethodInfo.fn, h]

theorem Store.call_isGeneric (cx : Cx V) (mi : MethodInfo V) (k : Key) (args : List V) (s : Store V)
    (w : World V) : (s.call cx mi k args w).2.1.isGeneric = s.isGeneric := by
  cases s with
  | concrete es => rfl
  | generic m => simp only [Store.call]; split <;> rfl

theorem Store.Sorted.call {n : Nat} {s : Store V} {mi : MethodInfo V} (cx : Cx V) (h : s.Sorted cx.nightly n mi)
    (k : Key) (args : List V) (w : World V) : (s.call cx mi k args w).2.1.Sorted cx.nightly n mi := by
  obtain ⟨h0, h, hinf, hd, hkeys⟩ := h
  have hk' : (s.call cx mi k args w).2.1.keys.Nodup := by
    cases s with
    | concrete es => simp [Store.call, Store.keys]
    | generic m =>
      simp only [Store.call]
      split
      · exact hkeys
      · exact (GMap.put_keys m k _ hkeys).1
  refine ⟨by rw [Store.call_isGeneric]; exact h0, ?_, ?_, ?_, hk'⟩
  rotate_left
  rotate_left
  · intro k'
    by_cases hk : k' = k
    · subst hk
      rw [(Store.call_target cx mi k' args s w).2.2, Expectations.call]
      exact callScan_dflt _ _ _ _ _ _ (hinf k') (hd k')
    · cases s with
      | concrete es =>
        simp only [Store.call, Store.target]
        rw [Expectations.call]
        exact callScan_dflt _ _ _ _ _ _ (hinf k) (hd k)
      | generic m =>
        rw [Store.call_target_other cx mi (Ne.symm hk)]
        exact hd k'
  rotate_left
  · intro k'
    by_cases hk : k' = k
    · subst hk
      rw [(Store.call_target cx mi k' args s w).2.2, Expectations.call, callScan_infos]
      exact hinf k'
    · cases s with
      | concrete es =>
        simp only [Store.call, Store.target]
        rw [Expectations.call, callScan_infos]
        exact hinf k'
      | generic m =>
        rw [Store.call_target_other cx mi (Ne.symm hk)]
        exact hinf k'
  intro k'
  by_cases hk : k' = k
  · subst hk
    rw [(Store.call_target cx mi k' args s w).2.2, Expectations.call, callScan_gids]
    exact h k'
  · cases s with
    | concrete es =>
      simp only [Store.call, Store.target]
      rw [Expectations.call, callScan_gids]
      exact h k
    | generic m =>
      rw [Store.call_target_other cx mi (Ne.symm hk)]
      exact h k'

theorem Store.Sorted.expect {n : Nat} {s : Store V} (nightly : Bool) (mi : MethodInfo V)
    (k : Key) (bs : List (Build V)) (w : World V) (h : s.Sorted nightly w.fresh mi) (hn : n = w.fresh + 1) :
    (s.expect nightly mi k bs w).2.1.Sorted nightly n mi := by
  subst hn
  obtain ⟨h0, h, hinf, hd, hkeys⟩ := h
  have hk' : (s.expect nightly mi k bs w).2.1.keys.Nodup := by
    cases s with
    | concrete es => simp [Store.expect, Store.keys]
    | generic m => exact (GMap.put_keys m k _ hkeys).1
  have hnd : (Expectation.builds bs (Expectation.new nightly (mi.fn k) w.fresh) w.seqs).2.1.DfltOk nightly := by
    have hc := (Cfg.new nightly (mi.fn k) w.fresh).builds w.seqs bs
    intro _ hr _ _
    rw [hc.ret, ← hr, hc.info]
  have hni : (Expectation.builds bs (Expectation.new nightly (mi.fn k) w.fresh) w.seqs).2.1.info = mi.fn k :=
    ((Cfg.new nightly (mi.fn k) w.fresh).builds w.seqs bs).info
  refine ⟨by cases s <;> exact h0, ?_, ?_, ?_, hk'⟩
  rotate_left
  rotate_left
  · intro k'
    cases s with
    | concrete es =>
      intro e he
      simp only [Store.expect, Expectations.expect, Store.target, List.mem_append, List.mem_singleton] at he
      rcases he with he | rfl
      · exact hd k' e he
      · exact hnd
    | generic m =>
      simp only [Store.expect, Store.target]
      by_cases hk : k' = k
      · subst hk
        rw [GMap.get_put_same]
        intro e he
        simp only [Expectations.expect, Option.getD_some, List.mem_append, List.mem_singleton] at he
        rcases he with he | rfl
        · exact hd k' e he
        · exact hnd
      · rw [GMap.get_put_other m (Ne.symm hk)]
        exact hd k'
  rotate_left
  · intro k'
    cases s with
    | concrete es =>
      intro i hi
      simp only [Store.expect, Expectations.expect, Store.target, List.map_append, List.map_cons,
        List.map_nil, List.mem_append, List.mem_singleton] at hi
      rcases hi with hi | hi
      · exact hinf k' i hi
      · rw [hi, hni]
        exact MethodInfo.fn_concrete h0.symm _ _
    | generic m =>
      simp only [Store.expect, Store.target]
      by_cases hk : k' = k
      · subst hk
        rw [GMap.get_put_same]
        intro i hi
        simp only [Expectations.expect, Option.getD_some, List.map_append, List.map_cons,
          List.map_nil, List.mem_append, List.mem_singleton] at hi
        rcases hi with hi | hi
        · exact hinf k' i hi
        · rw [hi, hni]
      · rw [GMap.get_put_other m (Ne.symm hk)]
        exact hinf k'
  have key : ∀ l : List (Expectation V), ((l.map (·.gid)).Pairwise (· < ·) ∧ ∀ g ∈ l.map (·.gid), g < w.fresh) →
      (((Expectations.expect nightly (mi.fn k) bs l w).2.1.map (·.gid)).Pairwise (· < ·) ∧
        ∀ g ∈ (Expectations.expect nightly (mi.fn k) bs l w).2.1.map (·.gid), g < w.fresh + 1) := by
    intro l ⟨h1, h2⟩
    have hf := (Expectation.builds_frame bs (Expectation.new nightly (mi.fn k) w.fresh) w.seqs).1
    simp only [Expectations.expect, List.map_append, List.map_cons, List.map_nil, hf]
    have hg : (Expectation.new nightly (mi.fn k) w.fresh).gid = w.fresh := rfl
    rw [hg]
    refine ⟨?_, ?_⟩
    · rw [List.pairwise_append]
      refine ⟨h1, by simp, fun a ha b hb => ?_⟩
      simp at hb; subst hb
      exact h2 a ha
    · intro g hg'
      rcases List.mem_append.mp hg' with hg' | hg'
      · exact Nat.lt_succ_of_lt (h2 g hg')
      · simp at hg'; omega
  intro k'
  cases s with
  | concrete es => exact key es (h k)
  | generic m =>
    simp only [Store.expect, Store.target]
    by_cases hk : k' = k
    · subst hk
      rw [GMap.get_put_same]
      simp only [Option.getD_some]
      exact key _ (h k')
    · rw [GMap.get_put_other m (Ne.symm hk)]
      exact ⟨(h k').1, fun g hg => Nat.lt_succ_of_lt ((h k').2 g hg)⟩

/-- All stores are in declaration order. -/
structure Sys.Sorted (ni : Bool) (s : Sys V) : Prop where
  objs : ∀ (o : Nat) (obj : Obj V), s.objs[o]? = some (some obj) → ∀ (m : Nat) (sl : Slot V), obj[m]? = some sl → sl.store.Sorted ni s.world.fresh sl.mi
  statics : ∀ (f : Nat) (sf : StaticFn V), s.statics[f]? = some sf → sf.store.Sorted ni s.world.fresh sf.mi

theorem Obj.checkpoint_sorted {ni : Bool} (env : Env V) (pk : Bool) (n : Nat) (obj : Obj V)
    (h : ∀ (m : Nat) (sl : Slot V), obj[m]? = some sl → sl.store.Sorted ni n sl.mi) :
    ∀ (m : Nat) (sl : Slot V), (obj.checkpoint env pk).2[m]? = some sl → sl.store.Sorted ni n sl.mi := by
  induction obj with
  | nil => simp [Obj.checkpoint]
  | cons s ss ih =>
    have hss : ∀ (m : Nat) (sl : Slot V), ss[m]? = some sl → sl.store.Sorted ni n sl.mi := fun m sl hm => h (m + 1) sl (by simpa using hm)
    intro m sl hm
    unfold Obj.checkpoint at hm
    simp only at hm
    split at hm
    · cases m with
      | zero => simp at hm; subst hm; exact (h 0 s rfl).drained _
      | succ m => exact hss m sl (by simpa using hm)
    · cases m with
      | zero => simp at hm; subst hm; exact (h 0 s rfl).drained _
      | succ m => exact ih hss m sl (by simpa using hm)

theorem StaticFn.checkpoint_sorted {ni : Bool} (env : Env V) (pk : Bool) (n : Nat) (f : StaticFn V)
    (h : f.store.Sorted ni n f.mi) : (f.checkpoint env pk).2.store.Sorted ni n (f.checkpoint env pk).2.mi := by
  unfold StaticFn.checkpoint
  split
  · exact h
  · exact h.drained _

theorem checkpointModule_sorted {ni : Bool} (env : Env V) (fs : List Nat) (n : Nat) (sts : List (StaticFn V))
    (h : ∀ (f : Nat) (sf : StaticFn V), sts[f]? = some sf → sf.store.Sorted ni n sf.mi) :
    ∀ (f : Nat) (sf : StaticFn V), (checkpointModule env fs sts).2[f]? = some sf → sf.store.Sorted ni n sf.mi := by
  induction fs generalizing sts with
  | nil => exact h
  | cons i fs ih =>
    unfold checkpointModule
    cases hi : sts[i]? with
    | none => exact h
    | some si =>
      have hset : ∀ (f : Nat) (sf : StaticFn V), (sts.set i (si.checkpoint env false).2)[f]? = some sf → sf.store.Sorted ni n sf.mi := by
        intro f sf hf
        rw [List.getElem?_set] at hf
        split at hf
        · split at hf
          · simp at hf; subst hf; exact StaticFn.checkpoint_sorted _ _ _ _ (h i si hi)
          · simp at hf
        · exact h f sf hf
      simp only
      split
      · exact hset
      · exact ih _ hset

theorem set_cases {α : Type} {l : List α} {i j : Nat} {x y : α} (h : (l.set i x)[j]? = some y) :
    (i = j ∧ y = x) ∨ l[j]? = some y := by
  rw [List.getElem?_set] at h
  split at h
  · split at h
    · simp at h; exact .inl ⟨by assumption, h.symm⟩
    · simp at h
  · exact .inr h

theorem Sys.Sorted.step {env : Env V} {s : Sys V} (h : s.Sorted env.nightly) (op : Op V) :
    (s.step env op).2.Sorted env.nightly := by
  obtain ⟨ho, hs⟩ := h
  cases op with
  | new ms =>
    refine ⟨?_, hs⟩
    intro o obj hobj m sl hm
    simp only [Sys.step] at hobj
    rw [List.getElem?_append] at hobj
    split at hobj
    · exact ho o obj hobj m sl hm
    · rw [List.getElem?_singleton] at hobj
      split at hobj
      · simp at hobj; subst hobj
        simp only [Obj.new, List.getElem?_map] at hm
        cases hx : ms[m]? with
        | none => simp [hx] at hm
        | some mi => simp [hx] at hm; subst hm; exact Store.Sorted.new _ _ _
      · simp at hobj
  | expect o m k bs =>
    simp only [Sys.step]
    rcases hobj : s.objs[o]? with _ | _ | obj
    · exact ⟨ho, hs⟩
    · exact ⟨ho, hs⟩
    · simp only [Obj.expect]
      cases hm : obj[m]? with
      | none => exact ⟨ho, hs⟩
      | some sl =>
        obtain ⟨_, _, hw⟩ := Store.expect_evo env.nightly sl.mi k bs sl.store s.world
        have hfresh : (sl.store.expect env.nightly sl.mi k bs s.world).2.2.fresh = s.world.fresh + 1 := by rw [hw]
        refine ⟨?_, ?_⟩
        · intro o' obj' h' m' sl' hm'
          simp only at h' ⊢
          rw [hfresh]
          rcases set_cases h' with ⟨rfl, h2⟩ | h2
          · simp at h2; subst h2
            rcases set_cases hm' with ⟨rfl, h3⟩ | h3
            · subst h3
              exact Store.Sorted.expect env.nightly sl.mi k bs s.world (ho o obj hobj m sl hm) rfl
            · exact (ho o obj hobj m' sl' h3).mono (Nat.le_succ _)
          · exact (ho o' obj' h2 m' sl' hm').mono (Nat.le_succ _)
        · intro f sf hf
          simp only
          rw [hfresh]
          exact (hs f sf hf).mono (Nat.le_succ _)
  | call o m k tid args upd =>
    simp only [Sys.step]
    rcases hobj : s.objs[o]? with _ | _ | obj
    · exact ⟨ho, hs⟩
    · exact ⟨ho, hs⟩
    · simp only [Obj.call]
      cases hm : obj[m]? with
      | none => exact ⟨ho, hs⟩
      | some sl =>
        have hfresh : (sl.store.call ⟨env.nightly, tid, env.dbg, upd⟩ sl.mi k args s.world).2.2.fresh = s.world.fresh := by
          have h := Store.call_evo ⟨env.nightly, tid, env.dbg, upd⟩ sl.mi k args sl.store s.world
          generalize sl.store.call ⟨env.nightly, tid, env.dbg, upd⟩ sl.mi k args s.world = x at *
          generalize x.1 = r at *
          generalize x.2.1.all = l' at *
          generalize x.2.2 = w' at *
          cases h with
          | none => rfl
          | early => rfl
          | pred => rfl
          | @hit e _ _ _ _ _ =>
            obtain ⟨b, _, hw⟩ := Expectation.call_world ⟨env.nightly, tid, env.dbg, upd⟩ (sl.mi.fn k) args e s.world
            rw [hw]
        refine ⟨?_, ?_⟩
        · intro o' obj' h' m' sl' hm'
          simp only at h' ⊢
          rw [hfresh]
          rcases set_cases h' with ⟨rfl, h2⟩ | h2
          · simp at h2; subst h2
            rcases set_cases hm' with ⟨rfl, h3⟩ | h3
            · subst h3
              exact Store.Sorted.call ⟨env.nightly, tid, env.dbg, upd⟩ (ho o obj hobj m sl hm) _ _ _
            · exact ho o obj hobj m' sl' h3
          · exact ho o' obj' h2 m' sl' hm'
        · intro f sf hf
          simp only
          rw [hfresh]
          exact hs f sf hf
  | checkpoint o =>
    simp only [Sys.step]
    rcases hobj : s.objs[o]? with _ | _ | obj
    · exact ⟨ho, hs⟩
    · exact ⟨ho, hs⟩
    · refine ⟨?_, hs⟩
      intro o' obj' h' m' sl' hm'
      simp only at h' ⊢
      rcases set_cases h' with ⟨rfl, h2⟩ | h2
      · simp at h2; subst h2
        exact Obj.checkpoint_sorted env false _ obj (ho o obj hobj) m' sl' hm'
      · exact ho o' obj' h2 m' sl' hm'
  | drop o pk =>
    simp only [Sys.step]
    rcases hobj : s.objs[o]? with _ | _ | obj
    · exact ⟨ho, hs⟩
    · exact ⟨ho, hs⟩
    · refine ⟨?_, hs⟩
      intro o' obj' h' m' sl' hm'
      simp only at h' ⊢
      rcases set_cases h' with ⟨rfl, h2⟩ | h2
      · simp at h2
      · exact ho o' obj' h2 m' sl' hm'
  | sexpect f k bs =>
    simp only [Sys.step]
    cases hf : s.statics[f]? with
    | none => exact ⟨ho, hs⟩
    | some sf =>
      simp only [StaticFn.expect]
      split
      · refine ⟨ho, ?_⟩
        intro f' sf' hf'
        simp only at hf' ⊢
        rcases set_cases hf' with ⟨rfl, h2⟩ | h2
        · rw [h2]; exact hs f sf hf
        · exact hs f' sf' h2
      · obtain ⟨_, _, hw⟩ := Store.expect_evo env.nightly sf.mi k bs sf.store s.world
        have hfresh : (sf.store.expect env.nightly sf.mi k bs s.world).2.2.fresh = s.world.fresh + 1 := by rw [hw]
        refine ⟨?_, ?_⟩
        · intro o' obj' h' m' sl' hm'
          simp only
          rw [hfresh]
          exact (ho o' obj' h' m' sl' hm').mono (Nat.le_succ _)
        · intro f' sf' hf'
          simp only at hf' ⊢
          rw [hfresh]
          rcases set_cases hf' with ⟨rfl, h2⟩ | h2
          · subst h2
            exact Store.Sorted.expect env.nightly sf.mi k bs s.world (hs f sf hf) rfl
          · exact (hs f' sf' h2).mono (Nat.le_succ _)
  | scall f k tid args =>
    simp only [Sys.step]
    cases hf : s.statics[f]? with
    | none => exact ⟨ho, hs⟩
    | some sf =>
      simp only [StaticFn.call]
      split
      · refine ⟨ho, ?_⟩
        intro f' sf' hf'
        simp only at hf' ⊢
        rcases set_cases hf' with ⟨rfl, h2⟩ | h2
        · rw [h2]; exact hs f sf hf
        · exact hs f' sf' h2
      · have hfresh : (sf.store.call ⟨env.nightly, tid, env.dbg, id⟩ sf.mi k args s.world).2.2.fresh = s.world.fresh := by
          have h := Store.call_evo ⟨env.nightly, tid, env.dbg, id⟩ sf.mi k args sf.store s.world
          generalize sf.store.call ⟨env.nightly, tid, env.dbg, id⟩ sf.mi k args s.world = x at *
          generalize x.1 = r at *
          generalize x.2.1.all = l' at *
          generalize x.2.2 = w' at *
          cases h with
          | none => rfl
          | early => rfl
          | pred => rfl
          | @hit e _ _ _ _ _ =>
            obtain ⟨b, _, hw⟩ := Expectation.call_world ⟨env.nightly, tid, env.dbg, id⟩ (sf.mi.fn k) args e s.world
            rw [hw]
        refine ⟨?_, ?_⟩
        · intro o' obj' h' m' sl' hm'
          simp only
          rw [hfresh]
          exact ho o' obj' h' m' sl' hm'
        · intro f' sf' hf'
          simp only at hf' ⊢
          rw [hfresh]
          rcases set_cases hf' with ⟨rfl, h2⟩ | h2
          · subst h2
            exact Store.Sorted.call ⟨env.nightly, tid, env.dbg, id⟩ (hs f sf hf) _ _ _
          · exact hs f' sf' h2
  | scheckpoint f =>
    simp only [Sys.step]
    cases hf : s.statics[f]? with
    | none => exact ⟨ho, hs⟩
    | some sf =>
      refine ⟨ho, ?_⟩
      intro f' sf' hf'
      simp only at hf' ⊢
      rcases set_cases hf' with ⟨rfl, h2⟩ | h2
      · subst h2; exact StaticFn.checkpoint_sorted _ _ _ _ (hs f sf hf)
      · exact hs f' sf' h2
  | sdrop f pk =>
    simp only [Sys.step]
    cases hf : s.statics[f]? with
    | none => exact ⟨ho, hs⟩
    | some sf =>
      refine ⟨ho, ?_⟩
      intro f' sf' hf'
      simp only at hf' ⊢
      rcases set_cases hf' with ⟨rfl, h2⟩ | h2
      · subst h2
        unfold StaticFn.dropContext
        split
        · exact (hs f sf hf).drained _
        · exact StaticFn.checkpoint_sorted _ _ _ _ (hs f sf hf)
      · exact hs f' sf' h2
  | mcheckpoint fs =>
    refine ⟨ho, ?_⟩
    exact checkpointModule_sorted env fs _ s.statics hs

theorem sorted_run (env : Env V) (sts : List (MethodInfo V)) (ops : List (Op V)) :
    (Sys.run env ops (Sys.init sts)).2.Sorted env.nightly := by
  have h0 : (Sys.init sts).Sorted env.nightly := by
    refine ⟨by simp [Sys.init], ?_⟩
    intro f sf hf
    simp only [Sys.init, List.getElem?_map] at hf
    cases hx : sts[f]? with
    | none => simp [hx] at hf
    | some mi => simp [hx] at hf; subst hf; exact Store.Sorted.new _ _ _
  generalize Sys.init sts = s at *
  induction ops generalizing s with
  | nil => exact h0
  | cons op ops ih => exact ih _ (h0.step op)

/-- A target list is in declaration order. -/
theorem target_sorted (env : Env V) (sts : List (MethodInfo V)) (ops : List (Op V)) (c : Callee) :
    ((((Sys.run env ops (Sys.init sts)).2.target c)).map (·.gid)).Pairwise (· < ·) := by
  have h := sorted_run env sts ops
  generalize (Sys.run env ops (Sys.init sts)).2 = s at *
  cases c with
  | inst o m k =>
    simp only [Sys.target]
    rcases hobj : s.objs[o]? with _ | _ | obj
    · simp
    · simp
    · simp only
      cases hm : obj[m]? with
      | none => simp
      | some sl => exact ((h.objs o obj hobj m sl hm).order k).1
  | stat f k =>
    simp only [Sys.target]
    cases hf : s.statics[f]? with
    | none => simp
    | some sf => exact ((h.statics f sf hf).order k).1

/-- A target list belongs to the function called. -/
theorem target_info (env : Env V) (sts : List (MethodInfo V)) (ops : List (Op V)) (c : Callee) (mi : MethodInfo V)
    (hi : (Sys.run env ops (Sys.init sts)).2.infoOf c = some mi) :
    ∀ e ∈ (Sys.run env ops (Sys.init sts)).2.target c, e.info = mi.fn c.key := by
  have h := sorted_run env sts ops
  generalize (Sys.run env ops (Sys.init sts)).2 = s at *
  intro e he
  cases c with
  | inst o m k =>
    simp only [Sys.target, Sys.infoOf] at he hi
    rcases hobj : s.objs[o]? with _ | _ | obj
    · simp [hobj] at he
    · simp [hobj] at he
    · simp only [hobj] at he hi
      cases hm : obj[m]? with
      | none => simp [hm] at he
      | some sl =>
        simp only [hm, Option.map_some, Option.some.injEq] at he hi
        subst hi
        exact (h.objs o obj hobj m sl hm).info k _ (List.mem_map_of_mem he)
  | stat f k =>
    simp only [Sys.target, Sys.infoOf] at he hi
    cases hf : s.statics[f]? with
    | none => simp [hf] at he
    | some sf =>
      simp only [hf, Option.map_some, Option.some.injEq] at he hi
      subst hi
      exact (h.statics f sf hf).info k _ (List.mem_map_of_mem he)

theorem target_dflt (env : Env V) (sts : List (MethodInfo V)) (ops : List (Op V)) (c : Callee) :
    ∀ e ∈ (Sys.run env ops (Sys.init sts)).2.target c, e.DfltOk env.nightly := by
  have h := sorted_run env sts ops
  generalize (Sys.run env ops (Sys.init sts)).2 = s at *
  intro e he
  cases c with
  | inst o m k =>
    simp only [Sys.target] at he
    rcases hobj : s.objs[o]? with _ | _ | obj
    · simp [hobj] at he
    · simp [hobj] at he
    · simp only [hobj] at he
      cases hm : obj[m]? with
      | none => simp [hm] at he
      | some sl =>
        simp only [hm] at he
        exact (h.objs o obj hobj m sl hm).dflt k _ he
  | stat f k =>
    simp only [Sys.target] at he
    cases hf : s.statics[f]? with
    | none => simp [hf] at he
    | some sf =>
      simp only [hf] at he
      exact (h.statics f sf hf).dflt k _ he

/-- Targets are live expectations. -/
theorem target_all (s : Sys V) (c : Callee) : ∀ e ∈ s.target c, e ∈ s.all := by
  have hst : ∀ (st : Store V) k, ∀ e ∈ st.target k, e ∈ st.all := by
    intro st k e he
    cases st with
    | concrete es => exact he
    | generic m =>
      simp only [Store.target] at he
      cases hg : GMap.get m k with
      | none => simp [hg] at he
      | some es =>
        obtain ⟨a, b, h1, _⟩ := GMap.get_split hg
        simp only [hg, Option.getD_some] at he
        simp only [Store.all, h1]
        simp [he]
  intro e he
  cases c with
  | inst o m k =>
    simp only [Sys.target] at he
    rcases hobj : s.objs[o]? with _ | _ | obj
    · simp [hobj] at he
    · simp [hobj] at he
    · simp only [hobj] at he
      cases hm : obj[m]? with
      | none => simp [hm] at he
      | some sl =>
        simp only [hm] at he
        refine List.mem_append_left _ (List.mem_flatMap.mpr ⟨some obj, List.mem_of_getElem? hobj, ?_⟩)
        exact List.mem_flatMap.mpr ⟨sl, List.mem_of_getElem? hm, hst _ _ _ he⟩
  | stat f k =>
    simp only [Sys.target] at he
    cases hf : s.statics[f]? with
    | none => simp [hf] at he
    | some sf =>
      simp only [hf] at he
      exact List.mem_append_right _ (List.mem_flatMap.mpr ⟨sf, List.mem_of_getElem? hf, hst _ _ _ he⟩)

end Mockall

namespace Mockall

open Spec

variable {V : Type}

/-- The write through a returned reference; static functions have no such results. -/
def Callee.upd (c : Callee) (u : V → V) : V → V :=
  match c with
  | .inst _ _ _ => u
  | .stat _ _ => id

/-- The callee exists and, if it is a static function, its mutex is not poisoned. -/
def Sys.usable (s : Sys V) (c : Callee) (mi : MethodInfo V) : Prop :=
  s.infoOf c = some mi ∧
  match c with
  | .inst _ _ _ => True
  | .stat f _ => ∀ sf, s.statics[f]? = some sf → sf.poison = false

/-- A call step in terms of the target list. -/
theorem step_call (env : Env V) (s : Sys V) (c : Callee) (mi : MethodInfo V) (h : s.usable c mi)
    (tid : Nat) (args : List V) (u : V → V) :
    let cx : Cx V := ⟨env.nightly, tid, env.dbg, c.upd u⟩
    let r := Expectations.call cx (mi.fn c.key) args (s.target c) s.world
    (s.step env (c.op tid args u)).1 = .value (expectMatch cx (mi.fn c.key) args r.1) ∧
    (s.step env (c.op tid args u)).2.world = r.2.2 ∧
    (s.step env (c.op tid args u)).2.target c = r.2.1 ∧
    (r.2.1 = s.target c → r.2.2 = s.world → (∃ x, r.1 = .ok x) → (s.step env (c.op tid args u)).2 = s) := by
  cases c with
  | inst o m k =>
    obtain ⟨hi, _⟩ := h
    simp only [Sys.infoOf] at hi
    rcases hobj : s.objs[o]? with _ | _ | obj
    · simp [hobj] at hi
    · simp [hobj] at hi
    · simp only [hobj] at hi
      cases hm : obj[m]? with
      | none => simp [hm] at hi
      | some sl =>
        simp [hm] at hi
        subst hi
        have ht : s.target (.inst o m k) = sl.store.target k := by simp [Sys.target, hobj, hm]
        have hsame := Store.call_same ⟨env.nightly, tid, env.dbg, u⟩ sl.mi k args sl.store s.world
        obtain ⟨h1, h2, h3⟩ := Store.call_target ⟨env.nightly, tid, env.dbg, u⟩ sl.mi k args sl.store s.world
        simp only [Callee.op, Sys.step, hobj, Obj.call, hm, Callee.key, Callee.upd, ht]
        rw [h1, h2]
        refine ⟨rfl, rfl, ?_, ?_⟩
        · have ho : o < s.objs.length := (List.getElem?_eq_some_iff.mp hobj).1
          have hml : m < obj.length := (List.getElem?_eq_some_iff.mp hm).1
          simp only [Sys.target, List.getElem?_set_self ho, List.getElem?_set_self hml, h3]
        · intro e1 e2 _
          rw [e2, hsame e1]
          have : obj.set m { sl with store := sl.store } = obj := by
            rw [List.getElem?_eq_some_iff] at hm
            obtain ⟨hl, hx⟩ := hm
            rw [show ({ sl with store := sl.store } : Slot V) = obj[m] from hx.symm]
            exact List.set_getElem_self hl
          rw [this]
          have h2 : s.objs.set o (some obj) = s.objs := by
            rw [List.getElem?_eq_some_iff] at hobj
            obtain ⟨hl, hx⟩ := hobj
            rw [← hx]
            exact List.set_getElem_self hl
          rw [h2]
  | stat f k =>
    obtain ⟨hi, hp⟩ := h
    simp only [Sys.infoOf] at hi
    cases hf : s.statics[f]? with
    | none => simp [hf] at hi
    | some sf =>
      simp [hf] at hi
      subst hi
      have hp := hp sf hf
      have ht : s.target (.stat f k) = sf.store.target k := by simp [Sys.target, hf]
      have hsame := Store.call_same ⟨env.nightly, tid, env.dbg, id⟩ sf.mi k args sf.store s.world
      obtain ⟨h1, h2, h3⟩ := Store.call_target ⟨env.nightly, tid, env.dbg, id⟩ sf.mi k args sf.store s.world
      simp only [Callee.op, Sys.step, hf, StaticFn.call, hp, Callee.key, Callee.upd, ht]
      simp only [Bool.false_eq_true, ↓reduceIte]
      rw [h1, h2]
      refine ⟨rfl, rfl, ?_, ?_⟩
      · have hl : f < s.statics.length := (List.getElem?_eq_some_iff.mp hf).1
        simp only [Sys.target, List.getElem?_set_self hl, h3]
      · intro e1 e2 ⟨x, hx⟩
        rw [e2, hsame e1, hx]
        rw [List.getElem?_eq_some_iff] at hf
        obtain ⟨hl, hx⟩ := hf
        have : ({ sf with store := sf.store, poison := false } : StaticFn V) = s.statics[f] := by
          rw [hx]
          cases sf
          simp only at hp
          subst hp
          rfl
        simp only [this, List.set_getElem_self hl]

end Mockall
