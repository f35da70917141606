import Verif.Lemmas.ConcNestedStack
import Verif.Props.ConcStaticNestedLive
import Verif.Props.ConcStaticNestedCount
import Verif.Spec.Mixed

/-! # Helper lemmas: objects and static methods used together -/

namespace Mockall

open Spec.Mixed

variable {V : Type}

/-! ## Which steps are not possible -/

theorem Act.step_waits {env : CEnv V} {c : Nat} {act : Act V} {m : Mem V} (h : act.step env c m = none) :
    act.finished = true ∨ (∃ a d, WantsMatcher act a ∧ (m.heap a).mheld = some d) ∨
    (∃ a d, WantsClosure act a ∧ (m.heap a).rheld = some d) ∨
    (∃ a, act.pc.holdsR = some a ∧ ∀ r p, (m.heap a).exp.ret ≠ .static r p) := by
  rcases Act.step_none h with h' | ⟨a, d, ha, hh, hn⟩ | ⟨a, d, _, _, hpc, hh, _⟩ | h'
  · exact .inl h'
  · unfold Act.step at h
    simp only at h
    cases hpc : act.pc with
    | scan rest =>
      cases rest with
      | nil => simp [hpc] at h
      | cons b rest =>
        simp only [hpc] at h
        cases hmh : (m.heap b).mheld with
        | some d => exact .inr (.inl ⟨b, d, .inl ⟨rest, hpc⟩, hmh⟩)
        | none => simp only [hmh] at h; split at h <;> cases h
    | matching b rest => simp [hpc, Pc.holdsM] at hn
    | check b rest =>
      simp only [hpc] at h
      repeat' split at h
      all_goals cases h
    | inc b => simp [hpc] at h
    | callFail b e =>
      simp only [hpc, Pc.addrs, List.mem_singleton] at ha
      subst ha
      exact .inr (.inl ⟨_, d, .inr (.inl ⟨e, hpc⟩), hh⟩)
    | verify b =>
      simp only [hpc] at h
      split at h <;> cases h
    | loadLow b => simp [hpc] at h
    | loadHigh b low => simp [hpc] at h
    | satisfy b => simp [hpc] at h
    | ret b =>
      simp only [hpc] at h
      cases hret : (m.heap b).exp.ret with
      | ref r => simp only [hret] at h; split at h <;> cases h
      | refMut r => simp [hret] at h
      | static r p =>
        simp only [hret] at h
        cases hrh : (m.heap b).rheld with
        | some d => exact .inr (.inr (.inl ⟨b, d, hpc, hrh⟩))
        | none => simp only [hrh] at h; split at h <;> cases h
    | run b =>
      refine .inr (.inr (.inr ⟨b, rfl, ?_⟩))
      intro r p hret
      simp only [hpc, hret] at h
      split at h <;> cases h
    | runFail b e =>
      simp only [hpc, Pc.addrs, List.mem_singleton] at ha
      subst ha
      exact .inr (.inl ⟨_, d, .inr (.inr (.inl ⟨e, hpc⟩)), hh⟩)
    | refFail b e =>
      simp only [hpc, Pc.addrs, List.mem_singleton] at ha
      subst ha
      exact .inr (.inl ⟨_, d, .inr (.inr (.inr ⟨e, hpc⟩)), hh⟩)
    | done r => simp [hpc, Pc.addrs] at ha
  · exact .inr (.inr (.inl ⟨a, d, hpc, hh⟩))
  · exact .inr (.inr (.inr h'))

theorem Act.step_matcher_held {env : CEnv V} {c d a : Nat} {act : Act V} {m : Mem V} (hw : WantsMatcher act a)
    (hh : (m.heap a).mheld = some d) : act.step env c m = none := by
  unfold Act.step
  rcases hw with ⟨rest, h⟩ | ⟨e, h⟩ | ⟨e, h⟩ | ⟨e, h⟩ <;> simp only [h, hh]

theorem Act.step_closure_held {env : CEnv V} {c d a : Nat} {act : Act V} {m : Mem V} (hw : WantsClosure act a)
    (hh : (m.heap a).rheld = some d) (hs : ∃ r p, (m.heap a).exp.ret = .static r p) : act.step env c m = none := by
  unfold Act.step
  obtain ⟨r, p, hs⟩ := hs
  simp only [show act.pc = .ret a from hw, hh, hs]

/-! ## What does not depend on the rest of the state -/

theorem CInv.congr {m0 : Mem V} {s t : CState V} (h : CInv m0 s) (hh : t.mem.heap = s.mem.heap) (ha : t.acts = s.acts) :
    CInv m0 t := by
  obtain ⟨h1, h2, h3, h4, h5⟩ := h
  refine ⟨by rwa [hh], by rwa [ha], h3.congr ha (by intro a; rw [hh]) (by intro a; rw [hh]), by rwa [hh, ha], by rwa [ha]⟩

theorem StaticInv.congr {s t : CState V} (h : StaticInv s) (hh : t.mem.heap = s.mem.heap) (ha : t.acts = s.acts) :
    StaticInv t := by
  intro c x hx a hr
  rw [hh]
  exact h c x (by rw [← ha]; exact hx) a hr

theorem TInv.world {s : TState V} (h : TInv s) (w : World V) : TInv { s with world := w } :=
  ⟨h.holds, h.held, h.stack, h.self⟩

theorem TState.Balanced.world {s : TState V} (h : s.Balanced) {w : World V} (hf : w.fresh = s.world.fresh)
    (hl : w.log = s.world.log) : TState.Balanced { s with world := w } := by
  unfold TState.Balanced at h ⊢
  simp only [hf, hl]
  exact h

theorem TInv.user_kept {env : Env V} {s s' : TState V} (h : TInv s) {id : Nat} {x : TAct V} {ans : Answer V}
    (hx : s.acts[id]? = some x) (hs : s.stepAct env id x ans = some s') {j : Nat} {y : TAct V}
    (hy : s.acts[j]? = some y) (hj : j ≠ id) : y.user s' = y.user s := by
  obtain ⟨pc, hacts, hother, hst, hins, hout, hearly⟩ := TState.stepAct_shape hx hs
  by_cases e : y.fn = x.fn
  · cases hi : x.act.pc.inside with
    | false => exact TAct.user_congr (by rw [e]; exact (hst hi).1)
    | true =>
      cases hyi : y.act.pc.inside with
      | true =>
        have h1 := h.holds id x hx hi
        have h2 := h.holds j y hy hyi
        rw [e, h1] at h2
        exact absurd (Option.some.inj h2).symm hj
      | false =>
        have : ∀ t : TState V, y.user t = false := by
          intro t
          cases hu : y.user t with
          | false => rfl
          | true => rw [TAct.user_inside hu] at hyi; cases hyi
        rw [this, this]
  · exact TAct.user_congr (by rw [(hother _ e).1])

/-! ## The order in which operations were begun -/

/-- All operations are in `order` once, in the order of their numbers. -/
structure UState.Ordered (s : UState V) : Prop where
  validCall : ∀ p i : Nat, s.order[p]? = some (Ref.call i) → i < s.calls.length
  validOp : ∀ p i : Nat, s.order[p]? = some (Ref.op i) → i < s.ops.length
  hasCall : ∀ i : Nat, i < s.calls.length → ∃ p : Nat, s.order[p]? = some (Ref.call i)
  hasOp : ∀ i : Nat, i < s.ops.length → ∃ p : Nat, s.order[p]? = some (Ref.op i)
  monoCall : ∀ p q i j : Nat, p < q → s.order[p]? = some (Ref.call i) → s.order[q]? = some (Ref.call j) → i < j
  monoOp : ∀ p q i j : Nat, p < q → s.order[p]? = some (Ref.op i) → s.order[q]? = some (Ref.op j) → i < j

theorem get_push {α : Type} (l : List α) (x : α) (n : Nat) :
    (l ++ [x])[n]? = if n = l.length then some x else l[n]? := by
  rcases Nat.lt_trichotomy n l.length with h | h | h
  · rw [List.getElem?_append_left h, if_neg (by omega)]
  · subst h; simp
  · rw [List.getElem?_eq_none (by simp; omega), List.getElem?_eq_none (by omega), if_neg (by omega)]

theorem get_lt {α : Type} {l : List α} {n : Nat} {x : α} (h : l[n]? = some x) : n < l.length :=
  (List.getElem?_eq_some_iff.1 h).1

theorem get_of_lt {α : Type} {l : List α} {n : Nat} (h : n < l.length) : ∃ x, l[n]? = some x :=
  ⟨l[n], List.getElem?_eq_getElem h⟩

namespace UState.Ordered

variable {s : UState V}

theorem uniqCall (h : s.Ordered) {p q i : Nat} (hp : s.order[p]? = some (Ref.call i)) (hq : s.order[q]? = some (Ref.call i)) :
    p = q := by
  rcases Nat.lt_trichotomy p q with hl | hl | hl
  · exact absurd (h.monoCall p q i i hl hp hq) (Nat.lt_irrefl _)
  · exact hl
  · exact absurd (h.monoCall q p i i hl hq hp) (Nat.lt_irrefl _)

theorem uniqOp (h : s.Ordered) {p q i : Nat} (hp : s.order[p]? = some (Ref.op i)) (hq : s.order[q]? = some (Ref.op i)) :
    p = q := by
  rcases Nat.lt_trichotomy p q with hl | hl | hl
  · exact absurd (h.monoOp p q i i hl hp hq) (Nat.lt_irrefl _)
  · exact hl
  · exact absurd (h.monoOp q p i i hl hq hp) (Nat.lt_irrefl _)

theorem pushCall (h : s.Ordered) (x : Act V) :
    UState.Ordered { s with calls := s.calls ++ [x], order := s.order ++ [.call s.calls.length] } := by
  have old : ∀ {p i : Nat}, s.order[p]? = some (Ref.call i) → p ≠ s.order.length := fun hp e => by
    have := get_lt hp; omega
  constructor
  · intro p i hp
    simp only [get_push] at hp
    simp only [List.length_append, List.length_singleton]
    split at hp
    · cases hp; omega
    · have := h.validCall p i hp; omega
  · intro p i hp
    simp only [get_push] at hp
    split at hp
    · cases hp
    · exact h.validOp p i hp
  · intro i hi
    simp only [List.length_append, List.length_singleton] at hi
    simp only [get_push]
    by_cases e : i = s.calls.length
    · exact ⟨s.order.length, by simp [e]⟩
    · obtain ⟨p, hp⟩ := h.hasCall i (by omega)
      exact ⟨p, by rw [if_neg (old hp), hp]⟩
  · intro i hi
    obtain ⟨p, hp⟩ := h.hasOp i hi
    refine ⟨p, ?_⟩
    simp only [get_push]
    rw [if_neg (by have := get_lt hp; omega), hp]
  · intro p q i j hpq hp hq
    simp only [get_push] at hp hq
    split at hq
    · cases hq
      rw [if_neg (by omega)] at hp
      exact h.validCall p i hp
    · have := get_lt hq
      rw [if_neg (by omega)] at hp
      exact h.monoCall p q i j hpq hp hq
  · intro p q i j hpq hp hq
    simp only [get_push] at hp hq
    split at hq
    · cases hq
    · have := get_lt hq
      rw [if_neg (by omega)] at hp
      exact h.monoOp p q i j hpq hp hq

theorem pushOp (h : s.Ordered) (x : TAct V) :
    UState.Ordered { s with ops := s.ops ++ [x], order := s.order ++ [.op s.ops.length] } := by
  constructor
  · intro p i hp
    simp only [get_push] at hp
    split at hp
    · cases hp
    · exact h.validCall p i hp
  · intro p i hp
    simp only [get_push] at hp
    simp only [List.length_append, List.length_singleton]
    split at hp
    · cases hp; omega
    · have := h.validOp p i hp; omega
  · intro i hi
    obtain ⟨p, hp⟩ := h.hasCall i hi
    refine ⟨p, ?_⟩
    simp only [get_push]
    rw [if_neg (by have := get_lt hp; omega), hp]
  · intro i hi
    simp only [List.length_append, List.length_singleton] at hi
    simp only [get_push]
    by_cases e : i = s.ops.length
    · exact ⟨s.order.length, by simp [e]⟩
    · obtain ⟨p, hp⟩ := h.hasOp i (by omega)
      exact ⟨p, by rw [if_neg (by have := get_lt hp; omega), hp]⟩
  · intro p q i j hpq hp hq
    simp only [get_push] at hp hq
    split at hq
    · cases hq
    · have := get_lt hq
      rw [if_neg (by omega)] at hp
      exact h.monoCall p q i j hpq hp hq
  · intro p q i j hpq hp hq
    simp only [get_push] at hp hq
    split at hq
    · cases hq
      rw [if_neg (by omega)] at hp
      exact h.validOp p i hp
    · have := get_lt hq
      rw [if_neg (by omega)] at hp
      exact h.monoOp p q i j hpq hp hq

theorem congr {t : UState V} (h : s.Ordered) (ho : t.order = s.order) (hc : t.calls.length = s.calls.length)
    (hp : t.ops.length = s.ops.length) : t.Ordered := by
  obtain ⟨h1, h2, h3, h4, h5, h6⟩ := h
  exact ⟨by rwa [ho, hc], by rwa [ho, hp], by rwa [ho, hc], by rwa [ho, hp], by rwa [ho], by rwa [ho]⟩

end UState.Ordered

/-! ## Looking at operations -/

theorem look_call {s : UState V} {p i : Nat} {x : Act V} (hp : s.order[p]? = some (Ref.call i)) (hx : s.calls[i]? = some x) :
    look s p = some ⟨x.tid, x.finished, (x.user s.objs.mem).map .exp⟩ := by
  simp [look, hp, UState.view, hx]

theorem look_op {s : UState V} {p i : Nat} {x : TAct V} (hp : s.order[p]? = some (Ref.op i)) (hx : s.ops[i]? = some x) :
    look s p = some ⟨x.act.tid, x.finished, if x.user s.stats then some (.fn x.fn) else none⟩ := by
  simp [look, hp, UState.view, hx]

theorem look_cases {s : UState V} {p : Nat} {v : View} (h : look s p = some v) :
    (∃ i x, s.order[p]? = some (Ref.call i) ∧ s.calls[i]? = some x ∧
      v = ⟨x.tid, x.finished, (x.user s.objs.mem).map .exp⟩) ∨
    ∃ i x, s.order[p]? = some (Ref.op i) ∧ s.ops[i]? = some x ∧
      v = ⟨x.act.tid, x.finished, if x.user s.stats then some (.fn x.fn) else none⟩ := by
  unfold look at h
  cases ho : s.order[p]? with
  | none => simp [ho] at h
  | some r =>
    cases r with
    | call i =>
      cases hx : s.calls[i]? with
      | none => simp [ho, UState.view, hx] at h
      | some x =>
        simp only [ho, UState.view, hx, Option.bind_some, Option.map_some, Option.some.injEq] at h
        exact .inl ⟨i, x, rfl, hx, h.symm⟩
    | op i =>
      cases hx : s.ops[i]? with
      | none => simp [ho, UState.view, hx] at h
      | some x =>
        simp only [ho, UState.view, hx, Option.bind_some, Option.map_some, Option.some.injEq] at h
        exact .inr ⟨i, x, rfl, hx, h.symm⟩

theorem UState.innermost_iff {s : UState V} {p tid : Nat} : s.innermost p tid = true ↔
    ∀ (q : Nat) (v : View), p < q → look s q = some v → v.over = false → v.tid ≠ tid := by
  unfold UState.innermost
  rw [List.all_eq_true]
  constructor
  · intro h q v hq hv hf e
    unfold look at hv
    cases ho : s.order[q]? with
    | none => simp [ho] at hv
    | some r =>
      simp only [ho, Option.bind_some] at hv
      have hm : r ∈ s.order.drop (p + 1) := by
        rw [List.mem_iff_getElem?]
        refine ⟨q - (p + 1), ?_⟩
        rw [List.getElem?_drop, show p + 1 + (q - (p + 1)) = q by omega]
        exact ho
      have := h r hm
      simp [hv, hf, e] at this
  · intro h r hr
    obtain ⟨n, hn⟩ := List.mem_iff_getElem?.1 hr
    rw [List.getElem?_drop] at hn
    cases hv : s.view r with
    | none => rfl
    | some v =>
      have := h (p + 1 + n) v (by omega) (by simp [look, hn, hv])
      cases hf : v.over with
      | true => simp [hf]
      | false => simp [this hf]

theorem UState.mayStart_iff {s : UState V} {tid : Nat} : s.mayStart tid = true ↔
    ∀ (q : Nat) (v : View), look s q = some v → v.over = false → v.tid = tid → ∃ a, v.user = some a := by
  unfold UState.mayStart
  rw [List.all_eq_true]
  constructor
  · intro h q v hv hf e
    unfold look at hv
    cases ho : s.order[q]? with
    | none => simp [ho] at hv
    | some r =>
      simp only [ho, Option.bind_some] at hv
      have := h r (List.mem_of_getElem? ho)
      simpa [hv, hf, e, Option.isSome_iff_exists] using this
  · intro h r hr
    obtain ⟨n, hn⟩ := List.mem_iff_getElem?.1 hr
    cases hv : s.view r with
    | none => rfl
    | some v =>
      have := h n v (by simp [look, hn, hv])
      cases hf : v.over with
      | true => simp [hf]
      | false =>
        by_cases e : v.tid = tid
        · obtain ⟨a, ha⟩ := this hf e
          simp [ha]
        · simp [e]

theorem UState.Ordered.innermost {s : UState V} (h : s.Ordered) {p i tid : Nat} (hp : s.order[p]? = some (Ref.op i))
    (hin : s.innermost p tid = true) : s.stats.innermost i tid = true := by
  rw [TState.innermost_iff]
  rw [UState.innermost_iff] at hin
  intro j y hj hy hf
  obtain ⟨q, hq⟩ := h.hasOp j (get_lt hy)
  have hpq : p < q := by
    rcases Nat.lt_trichotomy p q with hl | hl | hl
    · exact hl
    · subst hl; rw [hp] at hq; cases hq; omega
    · have := h.monoOp q p j i hl hq hp; omega
  exact hin q _ hpq (look_op hq hy) hf

theorem UState.Ordered.mayStart {s : UState V} (h : s.Ordered) {tid : Nat} (hm : s.mayStart tid = true) :
    s.stats.mayStart tid = true := by
  rw [TState.mayStart_iff]
  rw [UState.mayStart_iff] at hm
  intro i x hx hf ht
  obtain ⟨q, hq⟩ := h.hasOp i (get_lt hx)
  obtain ⟨a, ha⟩ := hm q _ (look_op hq hx) hf ht
  simp only at ha
  split at ha
  · rename_i hu; exact hu
  · cases ha

/-! ## One step -/

/-- What happens when a step is scheduled. -/
theorem UState.step_cases (env : UEnv V) (s : UState V) (p : Nat) (ans : Answer V) :
    s.step env (.step p ans) = s ∨
    (∃ (i : Nat) (x x' : Act V) (m' : Mem V), s.order[p]? = some (Ref.call i) ∧ s.calls[i]? = some x ∧
      s.innermost p x.tid = true ∧ Act.Step env.obj i x (s.objs.mem.scripted ans) x' m' ∧
      s.step env (.step p ans) =
        { s with heap := (s.objs.mem.restored m').heap, world := { s.world with seqs := m'.seqs, runs := m'.runs },
                 calls := s.calls.set i x' }) ∨
    ∃ (i : Nat) (x : TAct V) (t : TState V), s.order[p]? = some (Ref.op i) ∧ s.ops[i]? = some x ∧
      s.innermost p x.act.tid = true ∧ s.stats.stepAct env.stat i x ans = some t ∧
      s.step env (.step p ans) = { s with fns := t.fns, held := t.held, world := t.world, ops := t.acts } := by
  simp only [UState.step]
  cases ho : s.order[p]? with
  | none => exact .inl rfl
  | some r =>
    cases r with
    | call i =>
      simp only
      cases hx : s.calls[i]? with
      | none => exact .inl rfl
      | some x =>
        simp only
        split
        · rename_i hin
          unfold UState.stepCall
          cases hs : x.step env.obj i (s.objs.mem.scripted ans) with
          | none => exact .inl rfl
          | some r => exact .inr (.inl ⟨i, x, r.1, r.2, rfl, hx, hin, Act.step_rel hs, rfl⟩)
        · exact .inl rfl
    | op i =>
      simp only
      cases hx : s.ops[i]? with
      | none => exact .inl rfl
      | some x =>
        simp only
        split
        · rename_i hin
          unfold UState.stepOp
          cases hs : s.stats.stepAct env.stat i x ans with
          | none => exact .inl rfl
          | some t => exact .inr (.inr ⟨i, x, t, rfl, hx, hin, hs, rfl⟩)
        · exact .inl rfl

/-- What holds in every reachable state. -/
structure UInv (env : UEnv V) (m0 : Mem V) (s : UState V) : Prop where
  base : CInv m0 s.objs
  static : StaticInv s.objs
  within : ∀ (c : Nat) (x : Act V), s.calls[c]? = some x → x.Within env.obj
  tinv : TInv s.stats
  ordered : s.Ordered
  stack : ∀ (p q : Nat) (v w : View), p < q → look s p = some v → look s q = some w → v.tid = w.tid →
    v.over = false → w.over = false → ∃ a, v.user = some a

theorem UInv.rest (env : UEnv V) {heap : Nat → Cell V} (hf : Fresh heap) (fns : Nat → StaticFn V) (w : World V) :
    UInv env ⟨heap, w.seqs, w.runs⟩ (UState.rest heap fns w) := by
  refine ⟨?_, ?_, ?_, ?_, ?_, ?_⟩
  · exact CInv.init ⟨fun a => (hf a).1, fun a => (hf a).2.1, fun a => (hf a).2.2⟩
  · intro c x hx; simp [UState.rest, UState.objs] at hx
  · intro c x hx; simp [UState.rest] at hx
  · exact TInv.rest fns w
  · constructor <;> intros <;> simp_all [UState.rest]
  · intro p q v w' _ hp; simp [look, UState.rest] at hp

theorem look_pushCall {s : UState V} (x : Act V) (h : s.Ordered) (q : Nat) :
    look { s with calls := s.calls ++ [x], order := s.order ++ [.call s.calls.length] } q =
      if q = s.order.length then some ⟨x.tid, x.finished, (x.user s.objs.mem).map .exp⟩ else look s q := by
  split
  · rename_i e
    subst e
    exact look_call (i := s.calls.length) (by simp) (by simp)
  · rename_i e
    simp only [look, get_push, if_neg e]
    cases ho : s.order[q]? with
    | none => rfl
    | some r =>
      cases r with
      | call i =>
        have := h.validCall q i ho
        simp only [Option.bind_some, UState.view, get_push]
        rw [if_neg (by omega)]
        rfl
      | op i => rfl

theorem look_pushOp {s : UState V} (x : TAct V) (h : s.Ordered) (q : Nat) :
    look { s with ops := s.ops ++ [x], order := s.order ++ [.op s.ops.length] } q =
      if q = s.order.length then some ⟨x.act.tid, x.finished, if x.user s.stats then some (.fn x.fn) else none⟩
      else look s q := by
  split
  · rename_i e
    subst e
    exact look_op (i := s.ops.length) (by simp) (by simp)
  · rename_i e
    simp only [look, get_push, if_neg e]
    cases ho : s.order[q]? with
    | none => rfl
    | some r =>
      cases r with
      | op i =>
        have := h.validOp q i ho
        simp only [Option.bind_some, UState.view, get_push]
        rw [if_neg (by omega)]
        rfl
      | call i => rfl

theorem look_lt {s : UState V} {p : Nat} {v : View} (h : look s p = some v) : p < s.order.length := by
  rcases look_cases h with ⟨i, x, ho, -⟩ | ⟨i, x, ho, -⟩ <;> exact get_lt ho

theorem UInv.startCall {env : UEnv V} {m0 : Mem V} {s : UState V} (h : UInv env m0 s) (meth tid : Nat) (args : List V) :
    UInv env m0 (s.step env (.call meth tid args)) := by
  simp only [UState.step]
  split
  case isFalse => exact h
  rename_i hm
  rw [UState.mayStart_iff] at hm
  refine ⟨h.base.start meth tid args, h.static.start meth tid args, ?_, h.tinv, h.ordered.pushCall _, ?_⟩
  · intro c x hx
    simp only [get_push] at hx
    split at hx
    · cases hx
      exact ⟨by simp [Act.start, Pc.addrs], by simp [Act.start]⟩
    · exact h.within c x hx
  · intro p q v w hpq hp hq ht fv fw
    rw [look_pushCall _ h.ordered] at hp hq
    split at hq
    · rename_i e
      rw [if_neg (by omega)] at hp
      cases hq
      exact hm p v hp fv ht
    · have := look_lt hq
      rw [if_neg (by omega)] at hp
      exact h.stack p q v w hpq hp hq ht fv fw

theorem UInv.startOp {env : UEnv V} {m0 : Mem V} {s : UState V} (h : UInv env m0 s) (tid f : Nat) (op : SOp V) :
    UInv env m0 (s.step env (.op tid f op)) := by
  have ht := h.tinv.start (env := env.stat) tid f op
  simp only [UState.step]
  split
  case isFalse => exact h
  rename_i hm
  simp only [TState.step, h.ordered.mayStart hm, if_true] at ht
  rw [UState.mayStart_iff] at hm
  refine ⟨h.base, h.static, h.within, ht, h.ordered.pushOp _, ?_⟩
  intro p q v w hpq hp hq ht fv fw
  rw [look_pushOp _ h.ordered] at hp hq
  split at hq
  · rename_i e
    rw [if_neg (by omega)] at hp
    cases hq
    exact hm p v hp fv ht
  · have := look_lt hq
    rw [if_neg (by omega)] at hp
    exact h.stack p q v w hpq hp hq ht fv fw

/-- A step of one operation, seen from the others. -/
theorem UInv.frame {env : UEnv V} {m0 : Mem V} {s : UState V} (h : UInv env m0 s) (p : Nat) (ans : Answer V) :
    s.step env (.step p ans) = s ∨
    (∃ v v', look s p = some v ∧ v.over = false ∧ s.innermost p v.tid = true ∧
        look (s.step env (.step p ans)) p = some v' ∧ v'.tid = v.tid) ∧
      ∀ q, q ≠ p → look (s.step env (.step p ans)) q = look s q := by
  rcases UState.step_cases env s p ans with e | ⟨i, x, x', m', ho, hx, hin, hs, e⟩ | ⟨i, x, t, ho, hx, hin, hs, e⟩
  · exact .inl e
  · right
    rw [e]
    refine ⟨⟨_, _, look_call ho hx, hs.unfinished, hin, look_call (x := x') ho ?_, hs.ident.2.1⟩, ?_⟩
    · simp [List.getElem?_set_self (get_lt hx)]
    · intro q hq
      unfold look
      simp only
      cases hoq : s.order[q]? with
      | none => rfl
      | some r =>
        cases r with
        | op j => rfl
        | call j =>
          have hji : j ≠ i := by
            rintro rfl
            exact hq (h.ordered.uniqCall hoq ho)
          simp only [Option.bind_some, UState.view]
          rw [List.getElem?_set_ne (fun e => hji e.symm)]
          cases hy : s.calls[j]? with
          | none => rfl
          | some y =>
            have := user_kept (s := s.objs) h.base h.static hx hs hy hji
            simp only [Option.map_some, Option.some.injEq, View.mk.injEq, true_and]
            congr 1
  · right
    rw [e]
    obtain ⟨pc, hacts, hother, hst, hins, hout, hearly⟩ := TState.stepAct_shape hx hs
    have hunf : x.finished = false := by
      cases hf : x.finished with
      | false => rfl
      | true =>
        exfalso
        unfold TState.stepAct at hs
        obtain ⟨fn, tid, op, pc'⟩ := x
        cases pc' <;> simp [TAct.finished, SAct.finished] at hf
        simp [SAct.step] at hs
    refine ⟨⟨_, _, look_op ho hx, hunf, hin, look_op (x := { x with act := { x.act with pc := pc } }) ho ?_, rfl⟩, ?_⟩
    · simp only [hacts]
      exact List.getElem?_set_self (get_lt hx)
    · intro q hq
      unfold look
      simp only
      cases hoq : s.order[q]? with
      | none => rfl
      | some r =>
        cases r with
        | call j => rfl
        | op j =>
          have hji : j ≠ i := by
            rintro rfl
            exact hq (h.ordered.uniqOp hoq ho)
          simp only [Option.bind_some, UState.view, hacts]
          have hset : (s.stats.acts.set i { x with act := { x.act with pc := pc } })[j]? = s.ops[j]? :=
            List.getElem?_set_ne (fun e => hji e.symm)
          rw [hset]
          cases hy : s.ops[j]? with
          | none => rfl
          | some y =>
            have := TInv.user_kept h.tinv hx hs hy hji
            simp only [Option.map_some, Option.some.injEq, View.mk.injEq, true_and]
            rw [← this]
            rfl

theorem UInv.step {env : UEnv V} {m0 : Mem V} {s : UState V} (h : UInv env m0 s) (p : Nat) (ans : Answer V) :
    UInv env m0 (s.step env (.step p ans)) := by
  have hstack : ∀ (p' q : Nat) (v w : View), p' < q → look (s.step env (.step p ans)) p' = some v →
      look (s.step env (.step p ans)) q = some w → v.tid = w.tid → v.over = false → w.over = false →
      ∃ a, v.user = some a := by
    rcases h.frame p ans with e | ⟨⟨v0, v0', h0, f0, hin, h0', e0⟩, hk⟩
    · rw [e]; exact h.stack
    · rw [UState.innermost_iff] at hin
      intro p' q v w hpq hp hq ht fv fw
      by_cases e : p' = p
      · subst e
        rw [h0'] at hp
        cases hp
        rw [hk q (by omega)] at hq
        exact absurd (by rw [← ht, e0]) (hin q w hpq hq fw)
      · rw [hk p' e] at hp
        by_cases e' : q = p
        · subst e'
          rw [h0'] at hq
          cases hq
          exact h.stack p' q v v0 hpq hp h0 (by rw [ht, e0]) fv f0
        · rw [hk q e'] at hq
          exact h.stack p' q v w hpq hp hq ht fv fw
  rcases UState.step_cases env s p ans with e | ⟨i, x, x', m', ho, hx, hin, hs, e⟩ | ⟨i, x, t, ho, hx, hin, hs, e⟩
  · rw [e]; exact h
  · rw [e] at hstack ⊢
    refine ⟨h.base.nested hx hs, h.static.nested hx hs, ?_, h.tinv.world _,
      h.ordered.congr rfl (by simp) rfl, hstack⟩
    intro c y hy
    simp only at hy
    rw [acts_set hx] at hy
    split at hy
    · cases hy; exact hs.within (h.within i x hx)
    · exact h.within c y hy
  · rw [e] at hstack ⊢
    have ht := h.tinv.step (env := env.stat) i ans
    have hx' : s.stats.acts[i]? = some x := hx
    simp only [TState.step, hx', h.ordered.innermost ho hin, if_true, hs, Option.getD_some] at ht
    obtain ⟨pc, hacts, -⟩ := TState.stepAct_shape hx hs
    exact ⟨h.base.congr rfl rfl, h.static.congr rfl rfl, h.within, ht,
      h.ordered.congr rfl rfl (by simp [hacts, UState.stats]), hstack⟩

theorem UInv.run {env : UEnv V} {m0 : Mem V} : ∀ (sch : List (USched V)) {s : UState V}, UInv env m0 s →
    UInv env m0 (s.run env sch)
  | [], _, h => h
  | .call meth tid args :: sch, _, h => UInv.run sch (h.startCall meth tid args)
  | .op tid f op :: sch, _, h => UInv.run sch (h.startOp tid f op)
  | .step p ans :: sch, _, h => UInv.run sch (h.step p ans)

theorem Spec.Mixed.Reached.inv {env : UEnv V} {s : UState V} (h : Reached env s) : ∃ m0, UInv env m0 s := by
  obtain ⟨heap, fns, w, sch, hf, rfl⟩ := h
  exact ⟨_, UInv.run sch (UInv.rest env hf fns w)⟩

/-! ## The books of static methods -/

theorem UState.Balanced.run {env : UEnv V} {m0 : Mem V} : ∀ (sch : List (USched V)) {s : UState V}, UInv env m0 s →
    s.stats.Balanced → (s.run env sch).stats.Balanced
  | [], _, _, h => h
  | .call meth tid args :: sch, s, hi, h => by
    refine UState.Balanced.run sch (hi.startCall meth tid args) ?_
    simp only [UState.step]
    split <;> exact h
  | .op tid f op :: sch, s, hi, h => by
    refine UState.Balanced.run sch (hi.startOp tid f op) ?_
    have hb := h.start (env := env.stat) tid f op
    simp only [UState.step]
    split
    case isFalse => exact h
    rename_i hm
    simp only [TState.step, hi.ordered.mayStart hm, if_true] at hb
    exact hb
  | .step p ans :: sch, s, hi, h => by
    refine UState.Balanced.run sch (hi.step p ans) ?_
    rcases UState.step_cases env s p ans with e | ⟨i, x, x', m', ho, hx, hin, hs, e⟩ | ⟨i, x, t, ho, hx, hin, hs, e⟩
    · rw [e]; exact h
    · rw [e]; exact TState.Balanced.world h rfl rfl
    · rw [e]; exact h.stepAct hi.tinv hx hs

end Mockall
