import Verif.Lemmas.Separate
import Verif.Props.Reference

/-! # C96: mocks that share no sequence do not influence each other -/

namespace Mockall.Props

open Spec Spec.Ref

variable {V : Type} {P : Part}

/-- The sequences of the expectations of a method are in the part, or not. -/
def MethIn (P : Part) (v : Bool) (m : Meth V) : Prop := ∀ k, InSeqs P v (m.exps k)

theorem new_in {v : Bool} (mi : MethodInfo V) : MethIn P v (Meth.new mi) := fun _ => nofun

theorem put_in {v : Bool} {m : Meth V} {k : Key} {es : List (Exp V)} (h : MethIn P v m) (he : InSeqs P v es) :
    MethIn P v (m.put k es) := by
  intro j
  simp only [Meth.put]
  split
  · exact he
  · exact h j

/-- A program and its part: the part's mocks and sequences are in the same states, and nothing was done with the others. -/
structure Alone (P : Part) (s s' : St V) : Prop where
  olen : s.objs.length = s'.objs.length
  objs : ∀ o : Nat, P.obj o = true → s.objs[o]? = s'.objs[o]?
  oseq : ∀ (o : Nat) ms, s.objs[o]? = some (some ms) → ∀ m ∈ ms, MethIn P (P.obj o) m
  slen : s.statics.length = s'.statics.length
  stats : ∀ f : Nat, P.fn f = true → s.statics[f]? = s'.statics[f]?
  rest : ∀ (f : Nat) x, P.fn f = false → s.statics[f]? = some x → s'.statics[f]? = some (Meth.new x.1.mi, false)
  sseq : ∀ (f : Nat) x, s.statics[f]? = some x → MethIn P (P.fn f) x.1
  joined : SameCounts P s.joined s'.joined
  turn : SameCounts P s.turn s'.turn

theorem Alone.init (P : Part) (sts : List (MethodInfo V)) : Alone P (St.init sts) (St.init sts) where
  olen := rfl
  objs _ _ := rfl
  oseq o ms h := by simp [St.init] at h
  slen := rfl
  stats _ _ := rfl
  rest f x _ h := by
    rw [h]
    simp only [St.init, List.getElem?_map, Option.map_eq_some_iff] at h
    obtain ⟨mi, -, rfl⟩ := h
    rfl
  sseq f x h := by
    simp only [St.init, List.getElem?_map, Option.map_eq_some_iff] at h
    obtain ⟨mi, -, rfl⟩ := h
    exact new_in mi
  joined _ _ := rfl
  turn _ _ := rfl

/-- A change of an object of the part. -/
theorem Alone.setObj {s s' : St V} (h : Alone P s s') {o : Nat} (v : Option (List (Meth V))) {j j' t t' : Counts}
    (hv : ∀ ms, v = some ms → ∀ m ∈ ms, MethIn P (P.obj o) m) (hj : SameCounts P j j') (ht : SameCounts P t t') :
    Alone P { s with objs := s.objs.set o v, joined := j, turn := t }
      { s' with objs := s'.objs.set o v, joined := j', turn := t' } where
  olen := by simp [h.olen]
  objs i hi := by
    simp only [List.getElem?_set, h.olen, h.objs i hi]
  oseq i ms hm := by
    simp only [List.getElem?_set] at hm
    split at hm
    · rename_i e
      subst e
      split at hm
      · exact hv ms (Option.some.inj hm)
      · cases hm
    · exact h.oseq i ms hm
  slen := h.slen
  stats := h.stats
  rest := h.rest
  sseq := h.sseq
  joined := hj
  turn := ht

/-- A change of another object. -/
theorem Alone.setOther {s s' : St V} (h : Alone P s s') {o : Nat} (ho : P.obj o = false) (v : Option (List (Meth V)))
    {j t : Counts} (hv : ∀ ms, v = some ms → ∀ m ∈ ms, MethIn P (P.obj o) m) (hj : SameCounts P j s'.joined)
    (ht : SameCounts P t s'.turn) : Alone P { s with objs := s.objs.set o v, joined := j, turn := t } s' where
  olen := by simp [h.olen]
  objs i hi := by
    have : o ≠ i := fun e => by rw [e, hi] at ho; cases ho
    simp only [List.getElem?_set, this, if_false, h.objs i hi]
  oseq i ms hm := by
    simp only [List.getElem?_set] at hm
    split at hm
    · rename_i e
      subst e
      split at hm
      · exact hv ms (Option.some.inj hm)
      · cases hm
    · exact h.oseq i ms hm
  slen := h.slen
  stats := h.stats
  rest := h.rest
  sseq := h.sseq
  joined := hj
  turn := ht

/-- A change of a static method of the part. -/
theorem Alone.setFn {s s' : St V} (h : Alone P s s') {f : Nat} (hf : P.fn f = true) (v : Meth V × Bool) {j j' t t' : Counts}
    (hv : MethIn P (P.fn f) v.1) (hj : SameCounts P j j') (ht : SameCounts P t t') :
    Alone P { s with statics := s.statics.set f v, joined := j, turn := t }
      { s' with statics := s'.statics.set f v, joined := j', turn := t' } where
  olen := h.olen
  objs := h.objs
  oseq := h.oseq
  slen := by simp [h.slen]
  stats i hi := by
    simp only [List.getElem?_set, h.slen, h.stats i hi]
  rest i x hi hx := by
    have : f ≠ i := fun e => by rw [← e, hf] at hi; cases hi
    simp only [List.getElem?_set, this, if_false] at hx ⊢
    exact h.rest i x hi hx
  sseq i x hx := by
    simp only [List.getElem?_set] at hx
    split at hx
    · rename_i e
      subst e
      split at hx
      · cases hx; exact hv
      · cases hx
    · exact h.sseq i x hx
  joined := hj
  turn := ht

/-- A change of another static method. -/
theorem Alone.setFnOther {s s' : St V} (h : Alone P s s') {f : Nat} (hf : P.fn f = false) {x : Meth V × Bool}
    (hx : s.statics[f]? = some x) (v : Meth V × Bool) (hm : v.1.mi = x.1.mi) {j t : Counts}
    (hv : MethIn P (P.fn f) v.1) (hj : SameCounts P j s'.joined) (ht : SameCounts P t s'.turn) :
    Alone P { s with statics := s.statics.set f v, joined := j, turn := t } s' where
  olen := h.olen
  objs := h.objs
  oseq := h.oseq
  slen := by simp [h.slen]
  stats i hi := by
    have : f ≠ i := fun e => by rw [e, hi] at hf; cases hf
    simp only [List.getElem?_set, this, if_false, h.stats i hi]
  rest i y hi hy := by
    simp only [List.getElem?_set] at hy
    split at hy
    · rename_i e
      subst e
      split at hy
      · cases hy
        rw [hm]
        exact h.rest f x hf hx
      · cases hy
    · exact h.rest i y hi hy
  sseq i y hy := by
    simp only [List.getElem?_set] at hy
    split at hy
    · rename_i e
      subst e
      split at hy
      · cases hy; exact hv
      · cases hy
    · exact h.sseq i y hy
  joined := hj
  turn := ht

/-! ## Verification -/

theorem scheckpoint_in {v : Bool} {ks : List Key} {x : Meth V × Bool} (h : MethIn P v x.1) :
    MethIn P v (scheckpoint ks x).2.1 := by
  unfold scheckpoint
  split
  · exact h
  · exact new_in _

theorem checkpoint_in {v : Bool} {ks : Nat → List Key} {ms : List (Meth V)} (h : ∀ m ∈ ms, MethIn P v m) :
    ∀ m ∈ checkpoint ks ms, MethIn P v m := by
  intro m hm
  simp only [checkpoint, List.mem_mapIdx] at hm
  obtain ⟨i, hi, rfl⟩ := hm
  split
  · exact new_in _
  · exact h _ (List.getElem_mem hi)

theorem mcheckpoint_same {ks : Nat → List Key} : ∀ {fs : List Nat} {s s' : St V}, Alone P s s' →
    (∀ f ∈ fs, P.fn f = true) → (mcheckpoint ks fs s.statics).1 = (mcheckpoint ks fs s'.statics).1 ∧
      Alone P { s with statics := (mcheckpoint ks fs s.statics).2 } { s' with statics := (mcheckpoint ks fs s'.statics).2 }
  | [], s, s', h, _ => ⟨rfl, h⟩
  | f :: fs, s, s', h, hf => by
    have hf1 := hf f List.mem_cons_self
    unfold mcheckpoint
    rw [← h.stats f hf1]
    cases hx : s.statics[f]? with
    | none => exact ⟨rfl, h⟩
    | some x =>
      have hin := scheckpoint_in (ks := ks f) (h.sseq f x hx)
      have k := h.setFn hf1 (scheckpoint (ks f) x).2 hin h.joined h.turn
      simp only
      rcases hr : scheckpoint (ks f) x with ⟨_ | _, m'⟩
      · rw [hr] at k
        exact ⟨rfl, k⟩
      · rw [hr] at k
        exact mcheckpoint_same k fun g hg => hf g (List.mem_cons_of_mem _ hg)

theorem mcheckpoint_other {ks : Nat → List Key} : ∀ {fs : List Nat} {s s' : St V}, Alone P s s' →
    (∀ f ∈ fs, P.fn f = false) → Alone P { s with statics := (mcheckpoint ks fs s.statics).2 } s'
  | [], s, s', h, _ => h
  | f :: fs, s, s', h, hf => by
    have hf1 := hf f List.mem_cons_self
    unfold mcheckpoint
    cases hx : s.statics[f]? with
    | none => exact h
    | some x =>
      have hin := scheckpoint_in (ks := ks f) (h.sseq f x hx)
      have k := h.setFnOther hf1 hx _ (scheckpoint_mi _ _) hin h.joined h.turn
      simp only
      rcases hr : scheckpoint (ks f) x with ⟨_ | _, m'⟩
      · rw [hr] at k
        exact k
      · rw [hr] at k
        exact mcheckpoint_other k fun g hg => hf g (List.mem_cons_of_mem _ hg)

theorem orders_alone {s s' : St V} (h : Alone P s s') {op : Op V} (hm : P.mine op = true) {ks : Nat → List Key}
    (hk : s.Orders op ks) : s'.Orders op ks := by
  have stat : ∀ {i : Nat} {m : Meth V}, (∀ (i : Nat) (m : Meth V), (s.statics.map (·.1))[i]? = some m → m.Orders (ks i)) →
      (s'.statics.map (·.1))[i]? = some m → m.Orders (ks i) := by
    intro i m hk hm
    simp only [List.getElem?_map, Option.map_eq_some_iff] at hk hm
    obtain ⟨x', hx', rfl⟩ := hm
    cases hp : P.fn i with
    | true => exact hk i _ ⟨x', (h.stats i hp).trans hx', rfl⟩
    | false =>
      cases hx : s.statics[i]? with
      | none =>
        have h1 := (List.getElem?_eq_some_iff.1 hx').1
        have h2 := List.getElem?_eq_none_iff.1 hx
        rw [h.slen] at h2
        omega
      | some x =>
        have := h.rest i x hp hx
        rw [this] at hx'
        cases hx'
        exact fun hg => ⟨(hk i _ ⟨x, hx, rfl⟩ hg).1, fun k hk' => absurd rfl hk'⟩
  cases op with
  | checkpoint o | drop o _ =>
    intro i m
    have := h.objs o hm
    simp only [St.verified, ← this]
    exact hk i m
  | scheckpoint | sdrop | mcheckpoint =>
    intro i m
    exact stat hk
  | _ => intro i m hi; simp [St.verified] at hi

/-! ## Steps -/

theorem mem_set_in {v : Bool} {ms : List (Meth V)} {i : Nat} {x : Meth V} (h : ∀ m ∈ ms, MethIn P v m) (hx : MethIn P v x) :
    ∀ ms', some (ms.set i x) = some ms' → ∀ m ∈ ms', MethIn P v m := by
  rintro _ e m hm
  cases e
  rcases List.mem_or_eq_of_mem_set hm with hm | rfl
  · exact h m hm
  · exact hx

/-- An operation on the part's mocks does the same in both. -/
theorem step_mine {s s' : St V} (h : Alone P s s') {op : Op V} (hm : P.mine op = true) (hs : P.Splits op) (nightly : Bool)
    (dbg : V → String) (ks : Nat → List Key) :
    (s.step nightly dbg ks op).1 = (s'.step nightly dbg ks op).1 ∧
      Alone P (s.step nightly dbg ks op).2 (s'.step nightly dbg ks op).2 := by
  cases op with
  | new ms =>
    refine ⟨rfl, { h with olen := by simp [St.step, h.olen], objs := ?_, oseq := ?_ }⟩
    · intro o ho
      simp only [St.step, List.getElem?_append, h.olen, h.objs o ho]
    · intro o l hl
      simp only [St.step, List.getElem?_append] at hl
      split at hl
      · exact h.oseq o l hl
      · intro m hm
        have := List.mem_of_getElem? hl
        rw [List.mem_singleton] at this
        cases this
        obtain ⟨mi, -, rfl⟩ := List.mem_map.1 hm
        exact new_in mi
  | expect o m k bs =>
    simp only [Part.mine] at hm
    simp only [Part.Splits, hm] at hs
    simp only [St.step, ← h.objs o hm]
    rcases ho : s.objs[o]? with _ | _ | ms
    · exact ⟨rfl, h⟩
    · exact ⟨rfl, h⟩
    · simp only
      cases hx : ms[m]? with
      | none => exact ⟨rfl, h⟩
      | some x =>
        obtain ⟨k1, k2, k3⟩ := configure_same (e := {}) hs h.joined
        have hin := h.oseq o ms ho
        have hxin := hin x (List.mem_of_getElem? hx)
        simp only [k1, k2]
        refine ⟨trivial, ?_⟩
        refine h.setObj _ (mem_set_in hin (put_in hxin ?_)) k3 h.turn
        intro e he
        rcases List.mem_append.1 he with he | he
        · exact hxin _ e he
        · cases List.mem_singleton.1 he
          rw [hm]
          exact configure_place hs nofun
  | call o m k tid args upd =>
    simp only [Part.mine] at hm
    simp only [St.step, ← h.objs o hm]
    rcases ho : s.objs[o]? with _ | _ | ms
    · exact ⟨rfl, h⟩
    · exact ⟨rfl, h⟩
    · simp only
      cases hx : ms[m]? with
      | none => exact ⟨rfl, h⟩
      | some x =>
        have hin := h.oseq o ms ho
        have hxin := hin x (List.mem_of_getElem? hx)
        have hes : InSeqs P true (x.get k) := hm ▸ hxin _
        simp only
        rcases dispatch_same (c := ⟨nightly, x.fn k, dbg, tid, args, upd⟩) hes h.turn with ⟨d1, d2⟩ | ⟨r, es, u, u', d1, d2, d3⟩
        · rw [d1, d2]; exact ⟨rfl, h⟩
        · rw [d1, d2]
          refine ⟨rfl, h.setObj _ (mem_set_in hin (put_in hxin ?_)) h.joined d3⟩
          rw [hm]
          exact dispatch_place hes d1
  | checkpoint o =>
    simp only [Part.mine] at hm
    simp only [St.step, ← h.objs o hm]
    rcases ho : s.objs[o]? with _ | _ | ms
    · exact ⟨rfl, h⟩
    · exact ⟨rfl, h⟩
    · exact ⟨rfl, h.setObj _ (fun _ e => by cases e; exact checkpoint_in (h.oseq o ms ho)) h.joined h.turn⟩
  | drop o b =>
    simp only [Part.mine] at hm
    simp only [St.step, ← h.objs o hm]
    rcases ho : s.objs[o]? with _ | _ | ms
    · exact ⟨rfl, h⟩
    · exact ⟨rfl, h⟩
    · exact ⟨rfl, h.setObj _ nofun h.joined h.turn⟩
  | sexpect f k bs =>
    simp only [Part.mine] at hm
    simp only [Part.Splits, hm] at hs
    simp only [St.step, ← h.stats f hm]
    rcases hx : s.statics[f]? with _ | ⟨x, _ | _⟩
    · exact ⟨rfl, h⟩
    · obtain ⟨k1, k2, k3⟩ := configure_same (e := {}) hs h.joined
      have hxin := h.sseq f _ hx
      simp only [k1, k2]
      refine ⟨trivial, ?_⟩
      refine h.setFn hm _ (put_in hxin ?_) k3 h.turn
      intro e he
      rcases List.mem_append.1 he with he | he
      · exact hxin _ e he
      · cases List.mem_singleton.1 he
        rw [hm]
        exact configure_place hs nofun
    · exact ⟨rfl, h⟩
  | scall f k tid args =>
    simp only [Part.mine] at hm
    simp only [St.step, ← h.stats f hm]
    rcases hx : s.statics[f]? with _ | ⟨x, _ | _⟩
    · exact ⟨rfl, h⟩
    · have hxin := h.sseq f _ hx
      have hes : InSeqs P true (x.get k) := hm ▸ hxin _
      simp only
      rcases dispatch_same (c := ⟨nightly, x.fn k, dbg, tid, args, id⟩) hes h.turn with ⟨d1, d2⟩ | ⟨r, es, u, u', d1, d2, d3⟩
      · rw [d1, d2]; exact ⟨rfl, h⟩
      · rw [d1, d2]
        refine ⟨rfl, h.setFn hm _ (put_in hxin ?_) h.joined d3⟩
        rw [hm]
        exact dispatch_place hes d1
    · exact ⟨rfl, h⟩
  | scheckpoint f =>
    simp only [Part.mine] at hm
    simp only [St.step, ← h.stats f hm]
    cases hx : s.statics[f]? with
    | none => exact ⟨rfl, h⟩
    | some x => exact ⟨rfl, h.setFn hm _ (scheckpoint_in (h.sseq f x hx)) h.joined h.turn⟩
  | sdrop f b =>
    simp only [Part.mine] at hm
    simp only [St.step, ← h.stats f hm]
    cases hx : s.statics[f]? with
    | none => exact ⟨rfl, h⟩
    | some x =>
      refine ⟨rfl, h.setFn hm _ ?_ h.joined h.turn⟩
      cases b
      · exact scheckpoint_in (h.sseq f x hx)
      · exact new_in _
  | mcheckpoint fs =>
    simp only [Part.mine, List.all_eq_true] at hm
    obtain ⟨k1, k2⟩ := mcheckpoint_same (ks := ks) h hm
    simp only [St.step, k1]
    exact ⟨trivial, k2⟩

/-- An operation on other mocks does nothing to the part. -/
theorem step_other {s s' : St V} (h : Alone P s s') {op : Op V} (hm : P.mine op = false) (hs : P.Splits op) (nightly : Bool)
    (dbg : V → String) (ks : Nat → List Key) : Alone P (s.step nightly dbg ks op).2 s' := by
  cases op with
  | new ms => cases hm
  | expect o m k bs =>
    simp only [Part.mine] at hm
    simp only [Part.Splits, hm] at hs
    simp only [St.step]
    rcases ho : s.objs[o]? with _ | _ | ms
    · exact h
    · exact h
    · simp only
      cases hx : ms[m]? with
      | none => exact h
      | some x =>
        have hin := h.oseq o ms ho
        have hxin := hin x (List.mem_of_getElem? hx)
        refine h.setOther hm _ (mem_set_in hin (put_in hxin ?_)) (configure_other hs h.joined) h.turn
        intro e he
        rcases List.mem_append.1 he with he | he
        · exact hxin _ e he
        · cases List.mem_singleton.1 he
          rw [hm]
          exact configure_place hs nofun
  | call o m k tid args upd =>
    simp only [Part.mine] at hm
    simp only [St.step]
    rcases ho : s.objs[o]? with _ | _ | ms
    · exact h
    · exact h
    · simp only
      cases hx : ms[m]? with
      | none => exact h
      | some x =>
        have hin := h.oseq o ms ho
        have hxin := hin x (List.mem_of_getElem? hx)
        have hes : InSeqs P false (x.get k) := hm ▸ hxin _
        simp only
        cases hd : dispatch (⟨nightly, x.fn k, dbg, tid, args, upd⟩ : Call V) s.turn (x.get k) with
        | none => exact h
        | some r =>
          refine h.setOther hm _ (mem_set_in hin (put_in hxin ?_)) h.joined (dispatch_other hes hd h.turn)
          rw [hm]
          exact dispatch_place hes hd
  | checkpoint o =>
    simp only [Part.mine] at hm
    simp only [St.step]
    rcases ho : s.objs[o]? with _ | _ | ms
    · exact h
    · exact h
    · exact h.setOther hm _ (fun _ e => by cases e; exact checkpoint_in (h.oseq o ms ho)) h.joined h.turn
  | drop o b =>
    simp only [Part.mine] at hm
    simp only [St.step]
    rcases ho : s.objs[o]? with _ | _ | ms
    · exact h
    · exact h
    · exact h.setOther hm _ nofun h.joined h.turn
  | sexpect f k bs =>
    simp only [Part.mine] at hm
    simp only [Part.Splits, hm] at hs
    simp only [St.step]
    rcases hx : s.statics[f]? with _ | ⟨x, _ | _⟩
    · exact h
    · have hxin := h.sseq f _ hx
      refine h.setFnOther hm hx _ (by rfl) (put_in hxin ?_) (configure_other hs h.joined) h.turn
      intro e he
      rcases List.mem_append.1 he with he | he
      · exact hxin _ e he
      · cases List.mem_singleton.1 he
        rw [hm]
        exact configure_place hs nofun
    · exact h
  | scall f k tid args =>
    simp only [Part.mine] at hm
    simp only [St.step]
    rcases hx : s.statics[f]? with _ | ⟨x, _ | _⟩
    · exact h
    · have hxin := h.sseq f _ hx
      have hes : InSeqs P false (x.get k) := hm ▸ hxin _
      simp only
      cases hd : dispatch (⟨nightly, x.fn k, dbg, tid, args, id⟩ : Call V) s.turn (x.get k) with
      | none => exact h
      | some r =>
        refine h.setFnOther hm hx _ (by rfl) (put_in hxin ?_) h.joined (dispatch_other hes hd h.turn)
        rw [hm]
        exact dispatch_place hes hd
    · exact h
  | scheckpoint f =>
    simp only [Part.mine] at hm
    simp only [St.step]
    cases hx : s.statics[f]? with
    | none => exact h
    | some x => exact h.setFnOther hm hx _ (scheckpoint_mi _ _) (scheckpoint_in (h.sseq f x hx)) h.joined h.turn
  | sdrop f b =>
    simp only [Part.mine] at hm
    simp only [St.step]
    cases hx : s.statics[f]? with
    | none => exact h
    | some x =>
      cases b
      · exact h.setFnOther hm hx _ (scheckpoint_mi _ _) (scheckpoint_in (h.sseq f x hx)) h.joined h.turn
      · exact h.setFnOther hm hx _ (by rfl) (new_in _) h.joined h.turn
  | mcheckpoint fs =>
    rcases hs with hs | hs
    · exact absurd (List.all_eq_true.2 hs) (by simpa [Part.mine] using hm)
    · exact mcheckpoint_other h hs

/-! ## Programs -/

theorem runs_alone {nightly : Bool} {dbg : V → String} {s s' : St V} {ops : List (Op V)} {xs : List (Obs V)}
    (hr : Runs nightly dbg s ops xs) (h : Alone P s s') (hs : ∀ op ∈ ops, P.Splits op) :
    Runs nightly dbg s' (ops.filter P.mine) (P.seen ops xs) := by
  induction hr generalizing s' with
  | nil s => exact .nil s'
  | cons s op ks hk _ ih =>
    have hop := hs op List.mem_cons_self
    have hs' := fun o ho => hs o (List.mem_cons_of_mem _ ho)
    cases hm : P.mine op with
    | true =>
      obtain ⟨k1, k2⟩ := step_mine h hm hop nightly dbg ks
      simp only [Part.seen, List.zip_cons_cons, List.filter_cons, hm, if_true, List.map_cons]
      rw [k1]
      exact .cons s' op ks (orders_alone h hm hk) (ih k2 hs')
    | false =>
      simp only [Part.seen, List.zip_cons_cons, List.filter_cons, hm, Bool.false_eq_true, if_false]
      exact ih (step_other h hm hop nightly dbg ks) hs'

/-- C96.  What a program sees of some of its mocks is what it would see if it used no others, provided that the
others have no sequence in common with them. -/
theorem C96_alone (env : Env V) (hf : env.Fair) (sts : List (MethodInfo V)) (ops : List (Op V))
    (hl : ops.length ≤ usizeMax) (hg : ∀ mi ∈ sts, mi.generic = false) (ho : ∀ op ∈ ops, Ref.Plain op)
    (P : Part) (hs : ∀ op ∈ ops, P.Splits op) :
    P.seen ops (Sys.run env ops (Sys.init sts)).1 = (Sys.run env (ops.filter P.mine) (Sys.init sts)).1 := by
  have hlen := List.length_filter_le P.mine ops
  have ho' : ∀ op ∈ ops.filter P.mine, Ref.Plain op := fun op h => ho op (List.mem_filter.1 h).1
  rw [C84_exact env hf sts (ops.filter P.mine) (by omega) hg ho']
  refine plain_runs (runs_alone (C84_reference env hf sts ops hl) (.init P sts) hs) ⟨fun o ms h => ?_, fun f h => ?_⟩ ho'
  · simp [Ref.St.init] at h
  · obtain ⟨mi, hmi, rfl⟩ := List.mem_map.mp h
    exact hg mi hmi

/-- C96, of two programs: if they do the same with some mocks, and the other mocks have no sequence in common with
them, then both see the same of them, whatever they do with the others and in whatever order. -/
theorem C96_interleaved (env : Env V) (hf : env.Fair) (sts : List (MethodInfo V)) (ops ops' : List (Op V))
    (hl : ops.length ≤ usizeMax) (hl' : ops'.length ≤ usizeMax) (hg : ∀ mi ∈ sts, mi.generic = false)
    (ho : ∀ op ∈ ops, Ref.Plain op) (ho' : ∀ op ∈ ops', Ref.Plain op)
    (P : Part) (hs : ∀ op ∈ ops, P.Splits op) (hs' : ∀ op ∈ ops', P.Splits op)
    (h : ops.filter P.mine = ops'.filter P.mine) :
    P.seen ops (Sys.run env ops (Sys.init sts)).1 = P.seen ops' (Sys.run env ops' (Sys.init sts)).1 := by
  rw [C96_alone env hf sts ops hl hg ho P hs, C96_alone env hf sts ops' hl' hg ho' P hs', h]

/-- C96 with generic methods: what a program sees of some of its mocks it can also see if it uses no others. -/
theorem C96_generic (env : Env V) (hf : env.Fair) (sts : List (MethodInfo V)) (ops : List (Op V))
    (hl : ops.length ≤ usizeMax) (P : Part) (hs : ∀ op ∈ ops, P.Splits op) :
    Ref.Runs env.nightly env.dbg (Ref.St.init sts) (ops.filter P.mine) (P.seen ops (Sys.run env ops (Sys.init sts)).1) :=
  runs_alone (C84_reference env hf sts ops hl) (.init P sts) hs

open Derive in
/-- C96 for generated mocks, structs and modules: with the objects and static methods that stand for them (C84), what
the program sees of some it can also see if it uses no others. -/
theorem C96_generated (mocks : List Mock) (hv : ∀ mk ∈ mocks, mk.Valid)
    (info : Nat → List Ident → MethodInfo V) (env : Env V) (hf : env.Fair) :
    ∃ (P : Plan V) (stat : Nat → Nat → Nat), P.Lists mocks info stat ∧
      ∀ ops xs σ, ops.length ≤ usizeMax → PRun mocks info env (.init info) ops xs σ →
        ∃ obj ops', Apart σ mocks.length obj ∧ Pointwise (PSame mocks P obj stat) ops ops' ∧
          ∀ Q : Part, (∀ op ∈ ops', Q.Splits op) →
            Ref.Runs env.nightly env.dbg (Ref.St.init (P.statics.map fun x => info x.1 x.2)) (ops'.filter Q.mine)
              (Q.seen ops' xs) := by
  obtain ⟨P, stat, h, H⟩ := C84_generated mocks hv info env hf
  refine ⟨P, stat, h, fun ops xs σ hl hr => ?_⟩
  obtain ⟨obj, ops', h1, h2, h3⟩ := H ops xs σ hl hr
  exact ⟨obj, ops', h1, h2, fun Q hs => runs_alone h3 (.init Q _) hs⟩

/-! ## Examples -/

/-- The second object of `refProgram`, and the second sequence. -/
def exPart : Part := ⟨(· == 1), fun _ => false, (· == 1)⟩

/-- `C96_alone` applies to `refProgram`: eight of its operations are on the second object. -/
theorem C96_inhabited : (∀ op ∈ refProgram, exPart.Splits op) ∧ (refProgram.filter exPart.mine).length = 8 ∧
    exPart.seen refProgram (Sys.run refEnv refProgram (Sys.init [refStat])).1 =
      (Sys.run refEnv (refProgram.filter exPart.mine) (Sys.init [refStat])).1 ∧
    (Sys.run refEnv (refProgram.filter exPart.mine) (Sys.init [refStat])).1 =
      [.unit (.ok ()) false, .unit (.ok ()) false, .unit (.ok ()) false, .unit (.error .onlyExact) false,
        .value (.error (.ret "MockFoo::foo" "<anything>" .needNightly)),
        .unit (.error (.tooFewAtDrop "MockFoo::foo" "<anything>" 1 2)) false, .unit (.ok ()) false, .invalid] := by
  have hs : ∀ op ∈ refProgram, exPart.Splits op := by simp [refProgram, Part.Splits, exPart]
  refine ⟨hs, by rfl, ?_, by rfl⟩
  exact C96_alone refEnv refEnv_fair [refStat] refProgram (by decide) (by simp [refStat])
    (by simp [refProgram, Ref.Plain, refFoo, refBar]) exPart hs

/-- Two objects with expectations in different sequences. -/
def exSepA : List (Op Nat) :=
  [.new [refFoo], .new [refFoo],
    .expect 0 0 0 [.times (.n 1), .inSequence 0, .returnConst 7],
    .expect 1 0 0 [.times (.n 1), .inSequence 1, .returnConst 8],
    .call 0 0 0 0 [] id, .call 1 0 0 0 [] id]

/-- The second is used before the first, the first is dropped before its call, which panics. -/
def exSepB : List (Op Nat) :=
  [.new [refFoo], .new [refFoo],
    .expect 1 0 0 [.times (.n 1), .inSequence 1, .returnConst 8],
    .expect 0 0 0 [.times (.n 1), .inSequence 0, .returnConst 7], .drop 0 false,
    .call 1 0 0 0 [] id]

/-- `C96_interleaved` applies to them. -/
theorem C96_interleaved_inhabited :
    exSepA.filter exPart.mine = exSepB.filter exPart.mine ∧
    exPart.seen exSepA (Sys.run refEnv exSepA (Sys.init [])).1 = exPart.seen exSepB (Sys.run refEnv exSepB (Sys.init [])).1 ∧
    (exPart.seen exSepB (Sys.run refEnv exSepB (Sys.init [])).1)[3]? = some (.value (.ok 8)) ∧
    (Sys.run refEnv exSepB (Sys.init [])).1[4]? =
      some (.unit (.error (.tooFewAtDrop "MockFoo::foo" "<anything>" 0 1)) false) := by
  refine ⟨by rfl, C96_interleaved refEnv refEnv_fair [] exSepA exSepB (by decide) (by decide) (by simp)
    (by simp [exSepA, Ref.Plain, refFoo]) (by simp [exSepB, Ref.Plain, refFoo]) exPart
    (by simp [exSepA, Part.Splits, exPart]) (by simp [exSepB, Part.Splits, exPart]) (by rfl), by rfl, by rfl⟩

/-- Two objects with expectations in one sequence; the call of the second is allowed after that of the first. -/
def exShared : List (Op Nat) :=
  [.new [refFoo], .new [refFoo],
    .expect 0 0 0 [.times (.n 1), .inSequence 1, .returnConst 7],
    .expect 1 0 0 [.times (.n 1), .inSequence 1, .returnConst 8],
    .call 0 0 0 0 [] id, .call 1 0 0 0 [] id]

/-- Why the sequences must be different: the second object gives a value, but without the call of the first it panics. -/
theorem C96_shared :
    (exPart.seen exShared (Sys.run refEnv exShared (Sys.init [])).1)[3]? = some (.value (.ok 8)) ∧
    (Sys.run refEnv (exShared.take 4 ++ exShared.drop 5) (Sys.init [])).1[4]? =
      some (.value (.error (.seqViolation "MockFoo::foo()"))) ∧
    ¬ ∀ op ∈ exShared, exPart.Splits op := by
  refine ⟨by rfl, by rfl, ?_⟩
  simp [exShared, Part.Splits, exPart]

end Mockall.Props
