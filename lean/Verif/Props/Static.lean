import Verif.Props.Independence

/-! # Static functions: checkpoints, contexts and poisoning (C31-C33) -/

set_option linter.unusedSimpArgs false

namespace Mockall

open Spec Props

variable {V : Type}

/-! ## C33: checkpointing a static function -/

theorem step_scheckpoint (env : Env V) (s : Sys V) (f : Nat) (sf : StaticFn V) (hf : s.statics[f]? = some sf) :
    s.step env (.scheckpoint f) = (.unit (sf.checkpoint env false).1.1 (sf.checkpoint env false).1.2,
      { s with statics := s.statics.set f (sf.checkpoint env false).2 }) := by
  simp [Sys.step, hf]

theorem step_sdrop (env : Env V) (s : Sys V) (f : Nat) (pk : Bool) (sf : StaticFn V) (hf : s.statics[f]? = some sf) :
    s.step env (.sdrop f pk) = (.unit (sf.dropContext env pk).1.1 (sf.dropContext env pk).1.2,
      { s with statics := s.statics.set f (sf.dropContext env pk).2 }) := by
  simp [Sys.step, hf]

/-- The verdict over the expectations of a static function. -/
theorem static_verdict (env env' : Env V) (hf : env'.Fair) (sts : List (MethodInfo V)) (ops : List (Op V)) (f : Nat)
    (sf : StaticFn V) (hsf : (Sys.run env ops (Sys.init sts)).2.statics[f]? = some sf)
    (hlen : (logOf env sts ops).length < usizeMax)
    (hp : ∀ k, ∀ e ∈ (Sys.run env ops (Sys.init sts)).2.target (.stat f k), Peaceful ops e) :
    verdict ((sf.store.elems env').findSome? (·.fault sf.mi.base)) = .ok () ↔
      ∀ k, ∀ e ∈ (Sys.run env ops (Sys.init sts)).2.target (.stat f k),
        permits (countArg e.chain) (callsTo env sts ops e) := by
  rw [verdict_ok]
  have hkeys := ((sorted_run env sts ops).statics f sf hsf).keys
  have ht : ∀ k, (Sys.run env ops (Sys.init sts)).2.target (.stat f k) = sf.store.target k := by
    intro k; simp only [Sys.target, hsf]
  have key : ∀ k e, e ∈ sf.store.target k →
      (e.fault sf.mi.base = none ↔ permits (countArg e.chain) (callsTo env sts ops e)) := by
    intro k e he
    rw [← ht] at he
    rw [Expectation.fault_none]
    exact C02_verdict env sts ops _ e (target_all _ _ e he) hlen (hp k e he)
  simp only [ht]
  constructor
  · intro h k e he
    exact (key k e he).mp (h e ((Store.mem_elems hf _ e).mpr ((Store.mem_all_target hkeys e).mpr ⟨k, he⟩)))
  · intro h e he
    obtain ⟨k, hk⟩ := (Store.mem_all_target hkeys e).mp ((Store.mem_elems hf _ e).mp he)
    exact (key k e hk).mpr (h k e hk)

/-! ### The static functions of a program are always the same -/

theorem map_mi_set {sts : List (StaticFn V)} {f : Nat} {sf sf' : StaticFn V} (hf : sts[f]? = some sf) (h : sf'.mi = sf.mi) :
    (sts.set f sf').map (·.mi) = sts.map (·.mi) := by
  rw [List.map_set, h]
  apply List.ext_getElem?
  intro j
  rw [List.getElem?_set]
  split
  · rename_i hj
    subst hj
    simp only [List.length_map, List.getElem?_map, hf, Option.map_some]
    split
    · rfl
    · rename_i hl
      exact absurd (List.getElem?_eq_some_iff.mp hf).1 hl
  · rfl

theorem StaticFn.checkpoint_mi (env : Env V) (pk : Bool) (sf : StaticFn V) : (sf.checkpoint env pk).2.mi = sf.mi := by
  unfold StaticFn.checkpoint; split <;> rfl

theorem StaticFn.dropContext_mi (env : Env V) (pk : Bool) (sf : StaticFn V) : (sf.dropContext env pk).2.mi = sf.mi := by
  unfold StaticFn.dropContext
  split
  · rfl
  · exact StaticFn.checkpoint_mi env false sf

theorem checkpointModule_mi (env : Env V) (fs : List Nat) (sts : List (StaticFn V)) :
    (checkpointModule env fs sts).2.map (·.mi) = sts.map (·.mi) := by
  induction fs generalizing sts with
  | nil => rfl
  | cons f fs ih =>
    unfold checkpointModule
    rcases hf : sts[f]? with _ | sf
    · rfl
    · simp only
      have := map_mi_set hf (StaticFn.checkpoint_mi env false sf)
      split
      · exact this
      · rw [ih, this]

theorem step_statics (env : Env V) (s : Sys V) (op : Op V) :
    (s.step env op).2.statics.map (·.mi) = s.statics.map (·.mi) := by
  cases op <;> simp only [Sys.step]
  case mcheckpoint fs => exact checkpointModule_mi env fs _
  all_goals repeat' split
  all_goals first
    | rfl
    | (refine map_mi_set ‹_› ?_
       first
         | exact StaticFn.checkpoint_mi _ _ _
         | exact StaticFn.dropContext_mi _ _ _
         | (unfold StaticFn.expect; split <;> rfl)
         | (unfold StaticFn.call; split <;> rfl))

theorem run_statics (env : Env V) (ops : List (Op V)) (s : Sys V) :
    (Sys.run env ops s).2.statics.map (·.mi) = s.statics.map (·.mi) := by
  induction ops generalizing s with
  | nil => rfl
  | cons op ops ih => simp only [Sys.run]; rw [ih, step_statics]

/-- A static function of the program is there in every state. -/
theorem static_exists (env : Env V) (sts : List (MethodInfo V)) (ops : List (Op V)) {f : Nat} {mi : MethodInfo V}
    (hf : sts[f]? = some mi) : ∃ sf, (Sys.run env ops (Sys.init sts)).2.statics[f]? = some sf ∧ sf.mi = mi := by
  have h : ((Sys.run env ops (Sys.init sts)).2.statics.map (·.mi))[f]? = some mi := by
    rw [run_statics]
    simp [Sys.init, StaticFn.new, Function.comp_def, hf]
  rw [List.getElem?_map, Option.map_eq_some_iff] at h
  exact h

/-- **C33**, verdict (and **C29** for static functions: `env'` gives an arbitrary iteration order of the hash map): after any
program, `Context::checkpoint` on a function whose lock is not poisoned completes iff every expectation of
every instantiation got a permitted number of calls; otherwise it panics, without aborting. -/
theorem C33_verdict (env env' : Env V) (hf : env'.Fair) (sts : List (MethodInfo V)) (ops : List (Op V)) (f : Nat)
    (hex : f < sts.length) (hlock : (Sys.run env ops (Sys.init sts)).2.unpoisoned (.stat f 0))
    (hlen : (logOf env sts ops).length < usizeMax)
    (hp : ∀ k, ∀ e ∈ (Sys.run env ops (Sys.init sts)).2.target (.stat f k), Peaceful ops e) :
    ∃ r, ((Sys.run env ops (Sys.init sts)).2.step env' (.scheckpoint f)).1 = .unit r false ∧
      (r = .ok () ↔ ∀ k, ∀ e ∈ (Sys.run env ops (Sys.init sts)).2.target (.stat f k),
        permits (countArg e.chain) (callsTo env sts ops e)) := by
  obtain ⟨sf, hsf, _⟩ := static_exists env sts ops (List.getElem?_eq_getElem hex)
  have hpo := hlock sf hsf
  refine ⟨_, by rw [step_scheckpoint _ _ _ _ hsf, StaticFn.checkpoint_eq, hpo]; rfl, ?_⟩
  exact static_verdict env env' hf sts ops f sf hsf hlen hp

/-- **C29** for static functions: whether the checkpoint completes does not depend on the order of the hash map, in any state
whatsoever. -/
theorem C29_static (e1 e2 : Env V) (h1 : e1.Fair) (h2 : e2.Fair) (s : Sys V) (f : Nat) :
    (s.step e1 (.scheckpoint f)).1 = .unit (.ok ()) false ↔ (s.step e2 (.scheckpoint f)).1 = .unit (.ok ()) false := by
  rcases hf : s.statics[f]? with _ | sf
  · simp [Sys.step, hf]
  · rw [step_scheckpoint _ _ _ _ hf, step_scheckpoint _ _ _ _ hf, StaticFn.checkpoint_eq, StaticFn.checkpoint_eq]
    split
    · rfl
    · simp only [Obs.unit.injEq, and_true]
      rw [verdict_ok, verdict_ok]
      simp only [Store.mem_elems h1, Store.mem_elems h2]

/-- **C33**, cleared: whether or not verification fails, afterwards the function is as at the start of the program (no
expectations, lock not poisoned); nothing else changes. -/
theorem C33_clears (env : Env V) (sts : List (MethodInfo V)) (ops : List (Op V)) (f : Nat) (mi : MethodInfo V)
    (hf : sts[f]? = some mi) (hlock : (Sys.run env ops (Sys.init sts)).2.unpoisoned (.stat f 0)) :
    let s := (Sys.run env ops (Sys.init sts)).2
    (s.step env (.scheckpoint f)).2 = { s with statics := s.statics.set f (StaticFn.new mi) } ∧
    ∀ k, (s.step env (.scheckpoint f)).2.target (.stat f k) = [] := by
  intro s
  obtain ⟨sf, hsf, hmi⟩ := static_exists env sts ops hf
  have hpo := hlock sf hsf
  have hso := (sorted_run env sts ops).statics f sf hsf
  have h1 : (s.step env (.scheckpoint f)).2 = { s with statics := s.statics.set f (StaticFn.new mi) } := by
    rw [step_scheckpoint _ _ _ _ hsf, StaticFn.checkpoint_eq, hpo]
    simp only [Bool.false_eq_true, ↓reduceIte, Store.drained_new hso, StaticFn.new, hmi]
    obtain ⟨a, b, c⟩ := sf
    simp only at hmi hpo
    subst hmi hpo
    rfl
  refine ⟨h1, ?_⟩
  intro k
  rw [h1]
  have hlt : f < s.statics.length := (List.getElem?_eq_some_iff.mp hsf).1
  simp only [Sys.target, List.getElem?_set_self hlt, StaticFn.new, Store.new_target]

/-- **C33**, poisoned lock: the checkpoint panics and changes nothing. -/
theorem C33_poisoned (env : Env V) (s : Sys V) (f : Nat) (sf : StaticFn V) (hf : s.statics[f]? = some sf)
    (hp : sf.poison = true) : s.step env (.scheckpoint f) = (.unit (.error .poisoned) false, s) := by
  rw [step_scheckpoint _ _ _ _ hf, StaticFn.checkpoint_eq, hp]
  simp only [↓reduceIte]
  obtain ⟨hl, hx⟩ := List.getElem?_eq_some_iff.mp hf
  rw [← hx, List.set_getElem_self hl]

/-! ## C31: dropping a context -/

/-- **C31**: dropping a `Context` of function `f` while panicking, or normally with the lock not poisoned, leaves the
function as at the start of the program: without expectations, and with a usable lock.  This holds
whether or not verification failed; nothing else changes. -/
theorem C31_blank (env : Env V) (sts : List (MethodInfo V)) (ops : List (Op V)) (f : Nat) (mi : MethodInfo V) (pk : Bool)
    (hf : sts[f]? = some mi) (h : pk = true ∨ (Sys.run env ops (Sys.init sts)).2.unpoisoned (.stat f 0)) :
    let s := (Sys.run env ops (Sys.init sts)).2
    (s.step env (.sdrop f pk)).2 = { s with statics := s.statics.set f (StaticFn.new mi) } ∧
    (∀ k, (s.step env (.sdrop f pk)).2.target (.stat f k) = []) ∧ (s.step env (.sdrop f pk)).2.unpoisoned (.stat f 0) := by
  intro s
  obtain ⟨sf, hsf, hmi⟩ := static_exists env sts ops hf
  have hlt : f < s.statics.length := (List.getElem?_eq_some_iff.mp hsf).1
  have hso := (sorted_run env sts ops).statics f sf hsf
  have h1 : (s.step env (.sdrop f pk)).2 = { s with statics := s.statics.set f (StaticFn.new mi) } := by
    rw [step_sdrop _ _ _ _ _ hsf]
    cases pk with
    | true =>
      simp only [StaticFn.dropContext, ↓reduceIte, Store.drained_new hso, StaticFn.new, hmi, s]
    | false =>
      rcases h with h | h
      · simp at h
      · have := (C33_clears env sts ops f mi hf h).1
        rw [step_scheckpoint _ _ _ _ hsf] at this
        exact this
  refine ⟨h1, ?_, ?_⟩
  · intro k
    rw [h1]
    simp only [Sys.target, List.getElem?_set_self hlt, StaticFn.new, Store.new_target]
  · rw [h1]
    intro sf' hsf'
    simp only [List.getElem?_set_self hlt] at hsf'
    cases hsf'
    rfl

/-- **C31**, verdict: a normal drop of a `Context` verifies like its `checkpoint`. -/
theorem C31_verdict (env : Env V) (s : Sys V) (f : Nat) :
    s.step env (.sdrop f false) = s.step env (.scheckpoint f) := rfl

/-- **C31**, the limit: dropped normally with a poisoned lock, a `Context` panics and clears nothing. -/
theorem C31_poisoned (env : Env V) (s : Sys V) (f : Nat) (sf : StaticFn V) (hf : s.statics[f]? = some sf)
    (hp : sf.poison = true) : s.step env (.sdrop f false) = (.unit (.error .poisoned) false, s) := by
  rw [C31_verdict]
  exact C33_poisoned env s f sf hf hp

/-! ## C32: poisoning -/

theorem set_self {α : Type} {l : List α} {i : Nat} {x : α} (h : l[i]? = some x) : l.set i x = l := by
  obtain ⟨hl, hx⟩ := List.getElem?_eq_some_iff.mp h
  rw [← hx, List.set_getElem_self hl]

theorem checkpointModule_frozen (env : Env V) (fs : List Nat) (sts : List (StaticFn V)) {f : Nat} {sf : StaticFn V}
    (hf : sts[f]? = some sf) (hp : sf.poison = true) : (checkpointModule env fs sts).2[f]? = some sf := by
  induction fs generalizing sts with
  | nil => exact hf
  | cons i fs ih =>
    unfold checkpointModule
    rcases hi : sts[i]? with _ | si
    · exact hf
    · have hset : (sts.set i (si.checkpoint env false).2)[f]? = some sf := by
        by_cases hif : i = f
        · subst hif
          rw [hf] at hi
          cases hi
          rw [StaticFn.checkpoint_eq, hp]
          simp only [↓reduceIte]
          rw [set_self hf, hf]
        · rw [List.getElem?_set_ne hif, hf]
      simp only
      split
      · exact hset
      · exact ih _ hset

/-- A function with a poisoned lock is frozen, except for the drop of a context while panicking. -/
theorem step_frozen (env : Env V) (s : Sys V) {f : Nat} {sf : StaticFn V} (hf : s.statics[f]? = some sf)
    (hp : sf.poison = true) (op : Op V) (hop : op ≠ .sdrop f true) : (s.step env op).2.statics[f]? = some sf := by
  cases op <;> simp only [Sys.step]
  case mcheckpoint fs => exact checkpointModule_frozen env fs _ hf hp
  case new => exact hf
  case expect => repeat' split
                 all_goals exact hf
  case call => repeat' split
               all_goals exact hf
  case checkpoint => repeat' split
                     all_goals exact hf
  case drop => repeat' split
               all_goals exact hf
  case sexpect i k bs =>
    by_cases hif : i = f
    · subst hif
      simp only [hf, StaticFn.expect, hp, ↓reduceIte]
      rw [set_self hf, hf]
    · split
      · simp only [List.getElem?_set_ne hif, hf]
      · exact hf
  case scall i k tid args =>
    by_cases hif : i = f
    · subst hif
      simp only [hf, StaticFn.call, hp, ↓reduceIte]
      rw [set_self hf, hf]
    · split
      · simp only [List.getElem?_set_ne hif, hf]
      · exact hf
  case scheckpoint i =>
    by_cases hif : i = f
    · subst hif
      simp only [hf, StaticFn.checkpoint, hp, ↓reduceIte]
      rw [set_self hf, hf]
    · split
      · simp only [List.getElem?_set_ne hif, hf]
      · exact hf
  case sdrop i pk =>
    by_cases hif : i = f
    · subst hif
      cases pk with
      | true => exact absurd rfl hop
      | false =>
        simp only [hf, StaticFn.dropContext, StaticFn.checkpoint, hp, Bool.false_eq_true, ↓reduceIte]
        rw [set_self hf, hf]
    · split
      · simp only [List.getElem?_set_ne hif, hf]
      · exact hf

/-- **C32**, until: once the lock of function `f` is poisoned, then, whatever program runs, as long as no `Context` of
`f` is dropped while panicking: every call, `expect`, checkpoint and normal context drop on `f` panics with a
poison error (and changes nothing). -/
theorem C32_until (env : Env V) (s : Sys V) (f : Nat) (sf : StaticFn V) (hf : s.statics[f]? = some sf)
    (hp : sf.poison = true) (ops : List (Op V)) (hops : ∀ op ∈ ops, op ≠ .sdrop f true) :
    let t := (Sys.run env ops s).2
    (∀ k tid args, t.step env (.scall f k tid args) = (.value (.error .poisoned), t)) ∧
    (∀ k bs, t.step env (.sexpect f k bs) = (.unit (.error .poisoned) false, t)) ∧
    t.step env (.scheckpoint f) = (.unit (.error .poisoned) false, t) ∧
    t.step env (.sdrop f false) = (.unit (.error .poisoned) false, t) := by
  intro t
  have ht : t.statics[f]? = some sf := by
    simp only [t]
    clear t
    induction ops generalizing s with
    | nil => exact hf
    | cons op ops ih =>
      simp only [Sys.run]
      exact ih _ (step_frozen env s hf hp op (hops op (by simp))) (fun o ho => hops o (by simp [ho]))
  refine ⟨?_, ?_, C33_poisoned env t f sf ht hp, C31_poisoned env t f sf ht hp⟩
  · intro k tid args
    simp only [Sys.step, ht, StaticFn.call, hp, ↓reduceIte, set_self ht]
  · intro k bs
    simp only [Sys.step, ht, StaticFn.expect, hp, ↓reduceIte, set_self ht]

/-- The lock of the static function is poisoned. -/
def Sys.poisoned (s : Sys V) (f : Nat) : Prop := ∃ sf, s.statics[f]? = some sf ∧ sf.poison = true

theorem callScan_none (cx : Cx V) (info : FnInfo V) (args : List V) (n : Nat) (es : List (Expectation V)) (w : World V)
    (h : (callScan cx info args n es w).1 = .ok none) :
    (callScan cx info args n es w).2.1 = es ∧ (callScan cx info args n es w).2.2 = w := by
  have hE := callScan_evo cx info args n es w
  generalize callScan cx info args n es w = o at *
  obtain ⟨r, l', w'⟩ := o
  simp only at h hE ⊢
  subst h
  cases hE with
  | none => exact ⟨rfl, rfl⟩
  | @hit e l' r hc hm hr =>
    exfalso
    revert hr
    cases (e.call cx info args w).1 <;> simp

/-- **C32**, when: a call of function `f`, not yet poisoned, that panics leaves the lock poisoned, with one exception: the panic
is "No matching expectation found", and then the call has changed nothing at all.  A call that returns leaves the lock
usable. -/
theorem C32_call (env : Env V) (s : Sys V) (f : Nat) (k : Key) (mi : MethodInfo V) (hu : s.usable (.stat f k) mi) (tid : Nat)
    (args : List V) :
    (∃ v, (s.step env (.scall f k tid args)).1 = .value (.ok v) ∧ ¬ (s.step env (.scall f k tid args)).2.poisoned f) ∨
    (∃ p, (s.step env (.scall f k tid args)).1 = .value (.error p) ∧ (s.step env (.scall f k tid args)).2.poisoned f) ∨
    (s.step env (.scall f k tid args) =
      (.value (.error (.noMatch (mi.base.descname ++ "(" ++ ", ".intercalate (args.map env.dbg) ++ ")"))), s)) := by
  obtain ⟨hi, hp⟩ := hu
  obtain ⟨sf, hf, rfl⟩ := stat_slot hi
  have hpo := hp sf hf
  have hl : f < s.statics.length := (List.getElem?_eq_some_iff.mp hf).1
  simp only [Sys.step, hf, StaticFn.call, hpo, Bool.false_eq_true, ↓reduceIte]
  rcases hr : sf.store.call ⟨env.nightly, tid, env.dbg, id⟩ sf.mi k args s.world with ⟨p | (_ | v), st, w⟩
  · right; left
    exact ⟨p, rfl, _, List.getElem?_set_self hl, rfl⟩
  · right; right
    obtain ⟨h1, h2, h3⟩ := Store.call_target ⟨env.nightly, tid, env.dbg, id⟩ sf.mi k args sf.store s.world
    rw [hr] at h1 h2 h3
    simp only [Expectations.call] at h1 h2 h3
    obtain ⟨e1, e2⟩ := callScan_none _ _ _ _ _ _ h1.symm
    have hst := Store.call_same ⟨env.nightly, tid, env.dbg, id⟩ sf.mi k args sf.store s.world e1
    rw [hr] at hst
    simp only at hst
    subst hst
    rw [e2] at h2
    subst h2
    obtain ⟨a, b, c⟩ := sf
    simp only at hpo
    subst hpo
    simp only [set_self hf]
    rfl
  · left
    refine ⟨v, rfl, ?_⟩
    rintro ⟨sf', h1, h2⟩
    simp only [List.getElem?_set_self hl] at h1
    cases h1
    simp at h2

/-- **C32**: a call that reached an expectation (it is in the log) and panics poisons the lock, whatever the panic's
text. -/
theorem C32_reached (env : Env V) (s : Sys V) (f : Nat) (k : Key) (mi : MethodInfo V) (hu : s.usable (.stat f k) mi)
    (tid : Nat) (args : List V) (p : Panic) (hobs : (s.step env (.scall f k tid args)).1 = .value (.error p))
    (hlog : (s.step env (.scall f k tid args)).2.world.log ≠ s.world.log) :
    (s.step env (.scall f k tid args)).2.poisoned f := by
  rcases C32_call env s f k mi hu tid args with ⟨v, h, _⟩ | ⟨_, _, h⟩ | h
  · rw [h] at hobs; simp at hobs
  · exact h
  · rw [h] at hlog; exact absurd rfl hlog

/-- **C32**, for `expect` statements: a panicking builder call poisons the lock, too. -/
theorem C32_expect (env : Env V) (s : Sys V) (f : Nat) (k : Key) (mi : MethodInfo V) (hu : s.usable (.stat f k) mi)
    (bs : List (Build V)) :
    ((s.step env (.sexpect f k bs)).1 = .unit (.ok ()) false ∧ ¬ (s.step env (.sexpect f k bs)).2.poisoned f) ∨
    (∃ p, (s.step env (.sexpect f k bs)).1 = .unit (.error p) false ∧ (s.step env (.sexpect f k bs)).2.poisoned f) := by
  obtain ⟨hi, hp⟩ := hu
  obtain ⟨sf, hf, rfl⟩ := stat_slot hi
  have hpo := hp sf hf
  have hl : f < s.statics.length := (List.getElem?_eq_some_iff.mp hf).1
  simp only [Sys.step, hf, StaticFn.expect, hpo, Bool.false_eq_true, ↓reduceIte]
  rcases sf.store.expect env.nightly sf.mi k bs s.world with ⟨p | ⟨⟩, st, w⟩
  · right
    exact ⟨p, rfl, _, List.getElem?_set_self hl, rfl⟩
  · left
    refine ⟨rfl, ?_⟩
    rintro ⟨sf', h1, h2⟩
    simp only [List.getElem?_set_self hl] at h1
    cases h1
    simp at h2

/-- **C32**, release: dropping a `Context` while panicking makes the function usable again. -/
theorem C32_release (env : Env V) (sts : List (MethodInfo V)) (ops : List (Op V)) (f : Nat) (mi : MethodInfo V)
    (hf : sts[f]? = some mi) :
    ¬ ((Sys.run env ops (Sys.init sts)).2.step env (.sdrop f true)).2.poisoned f := by
  rintro ⟨sf, h1, h2⟩
  have := (C31_blank env sts ops f mi true hf (.inl rfl)).2.2 sf h1
  rw [this] at h2
  simp at h2

/-! ## C56: the checkpoint of a mocked module -/

/-- **C56**: the `checkpoint()` of a mocked module does exactly what the checkpoints of its functions would do one after
the other, up to and including the first that panics; the others are not touched. -/
theorem C56_module (env : Env V) (s : Sys V) (fs : List Nat) (hfs : ∀ f ∈ fs, f < s.statics.length) :
    ∃ a b, fs = a ++ b ∧
      (s.step env (.mcheckpoint fs)).2 = (Sys.run env (a.map .scheckpoint) s).2 ∧
      ((b = [] ∧ (s.step env (.mcheckpoint fs)).1 = .unit (.ok ()) false ∧
          ∀ ob ∈ (Sys.run env (a.map .scheckpoint) s).1, ob = .unit (.ok ()) false) ∨
       ∃ a' f p, a = a' ++ [f] ∧ (∀ ob ∈ (Sys.run env (a'.map .scheckpoint) s).1, ob = .unit (.ok ()) false) ∧
          ((Sys.run env (a'.map .scheckpoint) s).2.step env (.scheckpoint f)).1 = .unit (.error p) false ∧
          (s.step env (.mcheckpoint fs)).1 = .unit (.error p) false) := by
  induction fs generalizing s with
  | nil => exact ⟨[], [], rfl, rfl, .inl ⟨rfl, rfl, by simp [Sys.run]⟩⟩
  | cons f fs ih =>
    have hfl := hfs f (by simp)
    have hf : s.statics[f]? = some s.statics[f] := List.getElem?_eq_getElem hfl
    generalize s.statics[f] = sf at hf
    have hstep := step_scheckpoint env s f sf hf
    have hab : (sf.checkpoint env false).1.2 = false := by
      rw [StaticFn.checkpoint_eq]; split <;> rfl
    rcases hr : (sf.checkpoint env false).1.1 with p | ⟨⟩
    · refine ⟨[f], fs, rfl, ?_, .inr ⟨[], f, p, rfl, by simp [Sys.run], ?_, ?_⟩⟩
      · simp only [List.map_cons, List.map_nil, Sys.run, hstep]
        simp only [Sys.step, checkpointModule, hf, hr]
      · simp only [List.map_nil, Sys.run, hstep, hr, hab]
      · simp only [Sys.step, checkpointModule, hf, hr, hab]
    · let s1 : Sys V := { s with statics := s.statics.set f (sf.checkpoint env false).2 }
      have hm : s.step env (.mcheckpoint (f :: fs)) = s1.step env (.mcheckpoint fs) := by
        simp only [Sys.step, checkpointModule, hf, hr, s1]
      have h1 : s.step env (.scheckpoint f) = (.unit (.ok ()) false, s1) := by rw [hstep, hr, hab]
      obtain ⟨a, b, e1, e2, e3⟩ := ih s1 (by intro i hi; simp [s1]; exact hfs i (by simp [hi]))
      refine ⟨f :: a, b, by rw [e1]; rfl, ?_, ?_⟩
      · rw [hm, e2]
        simp only [List.map_cons, Sys.run, h1]
      · rw [hm]
        rcases e3 with ⟨h2, h3, h4⟩ | ⟨a', g, p, h2, h3, h4, h5⟩
        · left
          refine ⟨h2, h3, ?_⟩
          simp only [List.map_cons, Sys.run, h1, List.mem_cons]
          rintro ob (rfl | hob)
          · rfl
          · exact h4 ob hob
        · right
          refine ⟨f :: a', g, p, by rw [h2]; rfl, ?_, ?_, h5⟩
          · simp only [List.map_cons, Sys.run, h1, List.mem_cons]
            rintro ob (rfl | hob)
            · rfl
            · exact h3 ob hob
          · simp only [List.map_cons, Sys.run, h1]
            exact h4

/-! ## The hypotheses are met -/

section Examples

/-- Checkpoint fails; the function is cleared and works again. -/
example : (Sys.run (envOf false) [.sexpect 0 1 [.once, .returnConst 1], .sexpect 0 2 [.never], .scheckpoint 0,
      .scall 0 1 0 [], .sexpect 0 1 [.returnConst 5], .scall 0 1 0 [], .sdrop 0 false] (Sys.init [genInfo])).1 =
    [.unit (.ok ()) false, .unit (.ok ()) false, .unit (.error (.tooFewAtDrop "f" "<anything>" 0 1)) false,
      .value (.error (.noMatch "M::f()")), .unit (.ok ()) false, .value (.ok 5), .unit (.ok ()) false] := by rfl

/-- A call that panics in an expectation; then everything is poisoned, until a context is dropped while panicking. -/
example : (Sys.run (envOf false) [.sexpect 0 1 [.never, .returnConst 1], .scall 0 2 0 [], .scall 0 1 0 [], .scall 0 2 0 [],
      .sexpect 0 3 [], .scheckpoint 0, .sdrop 0 false, .sdrop 0 true, .sexpect 0 1 [.returnConst 6], .scall 0 1 0 []]
      (Sys.init [genInfo])).1 =
    [.unit (.ok ()) false, .value (.error (.noMatch "M::f()")),
      .value (.error (.call "f" "<anything>" .shouldNot)), .value (.error .poisoned), .unit (.error .poisoned) false,
      .unit (.error .poisoned) false, .unit (.error .poisoned) false, .unit (.ok ()) false, .unit (.ok ()) false,
      .value (.ok 6)] := by rfl

/-- A module with three functions, the second unsatisfied: the third is left alone. -/
example : (Sys.run (envOf false) [.sexpect 0 1 [.returnConst 1], .sexpect 1 1 [.once, .returnConst 1],
      .sexpect 2 1 [.returnConst 3], .mcheckpoint [0, 1, 2], .scall 0 1 0 [], .scall 2 1 0 []]
      (Sys.init [genInfo, genInfo, genInfo])).1.drop 3 =
    [.unit (.error (.tooFewAtDrop "f" "<anything>" 0 1)) false, .value (.error (.noMatch "M::f()")), .value (.ok 3)] := by rfl

end Examples

end Mockall
