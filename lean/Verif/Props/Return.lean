import Verif.Lemmas.Ret
import Verif.Props.Dispatch

/-! # Return values (C13-C18)

All theorems speak about whole programs.  `Answered … e` says that a call made after the program `ops`
is answered by expectation `e`: it was dispatched to `e` (see C06-C08 for when) and got through its
count and sequence checks. -/

set_option linter.unusedSimpArgs false

namespace Mockall

open Spec

variable {V : Type}

/-- After program `ops`, the call of `c` by thread `tid` with `args` is answered by `e`. -/
structure Answered (env : Env V) (sts : List (MethodInfo V)) (ops : List (Op V)) (c : Callee)
    (mi : MethodInfo V) (tid : Nat) (args : List V) (u : V → V) (e : Expectation V) : Prop where
  usable : (Sys.run env ops (Sys.init sts)).2.usable c mi
  target : e ∈ (Sys.run env ops (Sys.init sts)).2.target c
  log : ((Sys.run env ops (Sys.init sts)).2.step env (c.op tid args u)).2.world.log =
    (Sys.run env ops (Sys.init sts)).2.world.log ++ [⟨e.gid, tid, args, true, c.upd u⟩]

/-- The calls answered by `e` during the program, oldest first. -/
def earlier (env : Env V) (sts : List (MethodInfo V)) (ops : List (Op V)) (e : Expectation V) : List (Hit V) :=
  (Sys.run env ops (Sys.init sts)).2.world.log.filter fun h => h.gid == e.gid && h.passed

/-- What the caller of the next operation observes. -/
def nextObs (env : Env V) (sts : List (MethodInfo V)) (ops : List (Op V)) (op : Op V) : Obs V :=
  ((Sys.run env ops (Sys.init sts)).2.step env op).1

/-- The user closures executed during the program, oldest first: which, on which thread, with which
arguments. -/
def runsOf (env : Env V) (sts : List (MethodInfo V)) (ops : List (Op V)) : List (Run V) :=
  (Sys.run env ops (Sys.init sts)).2.world.runs

theorem run_snoc (env : Env V) (ops : List (Op V)) (op : Op V) (s : Sys V) :
    (Sys.run env (ops ++ [op]) s).2 = ((Sys.run env ops s).2.step env op).2 := by
  induction ops generalizing s with
  | nil => rfl
  | cons o ops ih => exact ih _

/-- The common core of the theorems below. -/
theorem Answered.fold {env : Env V} {sts : List (MethodInfo V)} {ops : List (Op V)} {c : Callee}
    {mi : MethodInfo V} {tid : Nat} {args : List V} {u : V → V} {e : Expectation V}
    (h : Answered env sts ops c mi tid args u e) (r0 : Ret V)
    (hr : (match returnSetter mi.base.kind e.chain with
      | some b => (retOf mi.base.kind b).getD (retDefault env.nightly (mi.fn c.key))
      | none => retDefault env.nightly (mi.fn c.key)) = r0)
    (hn : r0.needsDefault env.nightly = false) (r : Ret V)
    (hf : (earlier env sts ops e).foldl (Ret.next env.nightly (mi.fn c.key).default) r0 = r) :
    nextObs env sts ops (c.op tid args u) = .value (r.reply env.nightly (mi.fn c.key).default
      (.ret mi.base.funcname e.common.matcher.display) tid args) ∧
    runsOf env sts (ops ++ [c.op tid args u]) = runsOf env sts ops ++
      runEntry ⟨env.nightly, tid, env.dbg, c.upd u⟩ args (r.ran env.nightly (mi.fn c.key).default tid args) := by
  replace hr := (lastOf_setter _ _ _).trans hr
  have := answer_fold env sts ops c mi tid args u e r0 h.usable h.target h.log hr hn
  unfold runsOf
  rw [run_snoc, ← hf]
  exact this

/-! ## C13: `returning` -/

/-- **C13** for methods returning an owned value: a call answered by an expectation configured with
`returning(f)` runs `f` exactly once, with the arguments of this call, in the state in which the
earlier calls answered by the same expectation (and nothing else) left it, and returns exactly its
result.  A closure is a function of the calls it has seen and the present arguments, so the state
the earlier answered calls left is `f.hist ++` their arguments (`f.hist = []` for a new closure).  If
`f` panicked before, see `C13_panicked`. -/
theorem C13_returning (env : Env V) (sts : List (MethodInfo V)) (ops : List (Op V)) (c : Callee)
    (mi : MethodInfo V) (tid : Nat) (args : List V) (u : V → V) (e : Expectation V) (f : Closure V)
    (h : Answered env sts ops c mi tid args u e) (hk : mi.base.kind = .static)
    (hf : returnSetter .static e.chain = some (.returning f))
    (hok : ∀ a x b, (earlier env sts ops e).map (·.args) = a ++ x :: b → ∃ v, f.run (f.hist ++ a) x = .ok v) :
    nextObs env sts ops (c.op tid args u) =
      .value (f.run (f.hist ++ (earlier env sts ops e).map (·.args)) args) ∧
    runsOf env sts (ops ++ [c.op tid args u]) = runsOf env sts ops ++ [⟨f.tag, tid, args⟩] := by
  have := h.fold (.static (.mut f) false) (by rw [hk, hf]; rfl) rfl _ (fold_mut _ _ f _ hok)
  simp only [Ret.reply, Ret.ran, StaticRfunc.callMut, Closure.call] at this
  generalize f.run (f.hist ++ (earlier env sts ops e).map (·.args)) args = o at *
  cases o <;> exact this

/-- **C13** for `&mut self` methods returning a reference: the same, also after earlier panics of the
closure. -/
theorem C13_returning_mut (env : Env V) (sts : List (MethodInfo V)) (ops : List (Op V)) (c : Callee)
    (mi : MethodInfo V) (tid : Nat) (args : List V) (u : V → V) (e : Expectation V) (f : Closure V)
    (h : Answered env sts ops c mi tid args u e) (hk : mi.base.kind = .refMut)
    (hf : returnSetter .refMut e.chain = some (.returning f)) :
    nextObs env sts ops (c.op tid args u) =
      .value (f.run (f.hist ++ (earlier env sts ops e).map (·.args)) args) ∧
    runsOf env sts (ops ++ [c.op tid args u]) = runsOf env sts ops ++ [⟨f.tag, tid, args⟩] := by
  obtain ⟨o', ho'⟩ := fold_refMut_mut env.nightly (mi.fn c.key).default f none (earlier env sts ops e)
  have := h.fold (.refMut (.mut f none)) (by rw [hk, hf]; rfl) rfl _ ho'
  simp only [Ret.reply, Ret.ran, RefMutRfunc.callMut, Closure.call] at this
  generalize f.run (f.hist ++ (earlier env sts ops e).map (·.args)) args = o at *
  cases o <;> exact this

/-- **C13** after a panic of the closure (methods returning an owned value): the closure is never run
again; every later call answered by the expectation panics because of the poisoned lock. -/
theorem C13_panicked (env : Env V) (sts : List (MethodInfo V)) (ops : List (Op V)) (c : Callee)
    (mi : MethodInfo V) (tid : Nat) (args : List V) (u : V → V) (e : Expectation V) (f : Closure V)
    (h : Answered env sts ops c mi tid args u e) (hk : mi.base.kind = .static)
    (hf : returnSetter .static e.chain = some (.returning f))
    (hp : ∃ a x b p, (earlier env sts ops e).map (·.args) = a ++ x :: b ∧ f.run (f.hist ++ a) x = .error p) :
    nextObs env sts ops (c.op tid args u) = .value (.error .poisoned) ∧
    runsOf env sts (ops ++ [c.op tid args u]) = runsOf env sts ops := by
  obtain ⟨r, hr⟩ := fold_mut_panicked env.nightly (mi.fn c.key).default f _ hp
  have := h.fold (.static (.mut f) false) (by rw [hk, hf]; rfl) rfl _ hr
  simpa [Ret.reply, Ret.ran, runEntry] using this

/-- The ghost name of the closure a builder call supplies (0 for the closure made by `return_const`). -/
def tagOf : Build V → Option Nat
  | .returning f => some f.tag
  | .returningSt _ f => some f.tag
  | .returnConst _ => some 0
  | .returnConstSt _ _ => some 0
  | .returnOnce f => some f.tag
  | .returnOnceSt _ f => some f.tag
  | _ => none

/-- The thread a `_st` builder call is tied to. -/
def ownerOf : Build V → Option Nat
  | .returningSt t _ => some t
  | .returnConstSt t _ => some t
  | .returnOnceSt t _ => some t
  | _ => none

/-- What a run of a closure says about the return setting in force. -/
theorem ran_setter {nightly : Bool} {e : Expectation V} {d : Option V} {tid : Nat} {args : List V} {τ : Nat}
    (hl : (lastOf (retOf e.info.kind) (retDefault nightly e.info) e.chain).later e.ret)
    (h : e.ret.ran nightly d tid args = some τ) :
    ∃ b, returnSetter e.info.kind e.chain = some b ∧ tagOf b = some τ ∧
      ∀ t, ownerOf b = some t → tid = t := by
  rw [lastOf_setter] at hl
  cases hs : returnSetter e.info.kind e.chain with
  | none =>
    rw [hs] at hl
    simp only [retDefault] at hl
    rcases hk : e.info.kind <;> rw [hk] at hl <;> simp only at hl <;>
      rcases hr : e.ret with r | r | ⟨r, _ | _⟩ <;> rw [hr] at hl h <;> simp [Ret.later, Ret.ran] at hl h
    · rcases r with _ | _ | f | ⟨t, f⟩ | f | ⟨t, f⟩ <;> simp [StaticRfunc.later, StaticRfunc.callMut] at hl h
    · rcases r with (_ | _) | ⟨f, o⟩ | ⟨t, f, o⟩ | v <;> cases nightly <;> cases hd : e.info.default <;>
        simp [RefMutRfunc.later, RefMutRfunc.callMut, hd] at hl h
  | some b =>
    refine ⟨b, rfl, ?_⟩
    have hsome := (returnSetter_mem hs).2
    rw [hs] at hl
    simp only at hl
    rcases hk : e.info.kind <;> rw [hk] at hl hsome <;> cases b <;> simp [retOf] at hl hsome <;>
      rcases hr : e.ret with r | r | ⟨r, _ | _⟩ <;> rw [hr] at hl h <;> simp [Ret.later, Ret.ran] at hl h
    all_goals first
      | (rcases r with _ | _ | f | ⟨t, f⟩ | f | ⟨t, f⟩ <;>
          simp [StaticRfunc.later, StaticRfunc.callMut, Closure.later, Closure.call] at hl h <;>
          (repeat' split at h) <;> simp_all [tagOf, ownerOf])
      | (rcases r with (_ | _) | ⟨f, o⟩ | ⟨t, f, o⟩ | v <;>
          simp [RefMutRfunc.later, RefMutRfunc.callMut, Closure.later, Closure.call] at hl h <;>
          (repeat' split at h) <;> simp_all [tagOf, ownerOf])

/-- One step of any program: a user closure runs only inside a call answered by an expectation on which it
was the last return value set, once, on the calling thread and with that call's arguments. -/
theorem runs_step (env : Env V) (sts : List (MethodInfo V)) (ops : List (Op V)) (op : Op V) :
    let s := (Sys.run env ops (Sys.init sts)).2
    let t := s.step env op
    t.2.world.runs = s.world.runs ∨
    ∃ e ∈ s.all, ∃ tid args upd b τ, op.callInfo? = some (tid, args, upd) ∧
      t.2.world.log = s.world.log ++ [⟨e.gid, tid, args, true, upd⟩] ∧
      returnSetter e.info.kind e.chain = some b ∧ tagOf b = some τ ∧ (∀ o, ownerOf b = some o → tid = o) ∧
      t.2.world.runs = s.world.runs ++ [⟨τ, tid, args⟩] := by
  intro s t
  have hE := step_evo env s op
  have hI := sysInv_run env sts ops
  change SysInv env.nightly ops s.all s.world at hI
  change Evo env s.all s.world op t.1 t.2.all t.2.world at hE
  generalize t.1 = ob at *
  generalize t.2.all = l' at *
  generalize t.2.world = w' at *
  cases hE with
  | quiet => exact .inl rfl
  | expect => exact .inl rfl
  | pred => exact .inl rfl
  | @hit tid args upd e ob l' info hc hm hch ho =>
    obtain ⟨l1, l2, hl1, _⟩ := hch
    have hmem : e ∈ s.all := by rw [hl1]; simp
    have hcr := Expectation.call_ret (cx := ⟨env.nightly, tid, env.dbg, upd⟩) (info := info) (args := args)
      (w := s.world) (Expectation.matches_mpoison hm)
    rcases hcr with ⟨_, _, _, hr, _⟩ | ⟨_, _, hr, hl⟩
    · exact .inl hr
    · cases hran : e.ret.ran env.nightly info.default tid args with
      | none =>
        left
        rw [hran] at hr
        simpa [runEntry] using hr
      | some τ =>
        right
        obtain ⟨b, hb1, hb2, hb3⟩ := ran_setter (hI.live e hmem).ret.1 hran
        refine ⟨e, hmem, tid, args, upd, b, τ, hc, hl, hb1, hb2, hb3, ?_⟩
        rw [hran] at hr
        exact hr

/-- **C13, "only through those calls"**: whatever the next operation is, either no user closure runs, or
exactly one does: the operation is a call that is answered by a live expectation `e`, the closure is
the one last set on `e`, and it runs once, on the calling thread, with the call's arguments. -/
theorem C13_only (env : Env V) (sts : List (MethodInfo V)) (ops : List (Op V)) (op : Op V) :
    runsOf env sts (ops ++ [op]) = runsOf env sts ops ∨
    ∃ e ∈ (Sys.run env ops (Sys.init sts)).2.all, ∃ tid args upd b τ,
      op.callInfo? = some (tid, args, upd) ∧
      (Sys.run env (ops ++ [op]) (Sys.init sts)).2.world.log =
        (Sys.run env ops (Sys.init sts)).2.world.log ++ [⟨e.gid, tid, args, true, upd⟩] ∧
      returnSetter e.info.kind e.chain = some b ∧ tagOf b = some τ ∧
      runsOf env sts (ops ++ [op]) = runsOf env sts ops ++ [⟨τ, tid, args⟩] := by
  unfold runsOf
  rw [run_snoc]
  rcases runs_step env sts ops op with h | ⟨e, he, tid, args, upd, b, τ, h1, h2, h3, h4, _, h5⟩
  · exact .inl h
  · exact .inr ⟨e, he, tid, args, upd, b, τ, h1, h2, h3, h4, h5⟩

/-! ## C14: `return_const` -/

/-- **C14**: every call answered by an expectation configured with `return_const(v)` returns `v`, for
methods returning owned values and for `&self` methods returning references. -/
theorem C14_const (env : Env V) (sts : List (MethodInfo V)) (ops : List (Op V)) (c : Callee)
    (mi : MethodInfo V) (tid : Nat) (args : List V) (u : V → V) (e : Expectation V) (v : V)
    (h : Answered env sts ops c mi tid args u e) (hk : mi.base.kind = .static ∨ mi.base.kind = .ref)
    (hf : returnSetter mi.base.kind e.chain = some (.returnConst v)) :
    nextObs env sts ops (c.op tid args u) = .value (.ok v) := by
  rcases hk with hk | hk
  · have := h.fold (.static (.mut { run := fun _ _ => .ok v }) false) (by rw [hf, hk]; rfl) rfl _
      (fold_mut _ _ _ _ (fun _ _ _ _ => ⟨v, rfl⟩))
    exact this.1
  · have := h.fold (.ref (.const v)) (by rw [hf, hk]; rfl) rfl _ (fold_ref _ _ _ _)
    exact this.1

/-- **C14** for `return_const_st(v)`: as long as the expectation has only been called by the thread that
configured it, its calls return `v`. -/
theorem C14_const_st (env : Env V) (sts : List (MethodInfo V)) (ops : List (Op V)) (c : Callee)
    (mi : MethodInfo V) (tid : Nat) (args : List V) (u : V → V) (e : Expectation V) (v : V)
    (h : Answered env sts ops c mi tid args u e) (hk : mi.base.kind = .static)
    (hf : returnSetter .static e.chain = some (.returnConstSt tid v))
    (ht : ∀ x ∈ earlier env sts ops e, x.tid = tid) :
    nextObs env sts ops (c.op tid args u) = .value (.ok v) := by
  have := h.fold (.static (.mutSt tid { run := fun _ _ => .ok v }) false) (by rw [hk, hf]; rfl) rfl _
    (fold_mutSt _ _ _ _ _ ht (fun _ _ _ _ => ⟨v, rfl⟩))
  simpa [Ret.reply, StaticRfunc.callMut, Closure.call] using this.1

/-! ## C15: `return_once` -/

/-- The function given to `return_once` or `return_once_st`, and the thread it is tied to. -/
def onceOf : Build V → Option (OnceClosure V × Option Nat)
  | .returnOnce f => some (f, none)
  | .returnOnceSt t f => some (f, some t)
  | _ => none

/-- **C15, first call**: the first call answered by a `return_once(f)` expectation, if it comes from a
permitted thread, runs `f` once on its arguments and returns exactly its result. -/
theorem C15_first (env : Env V) (sts : List (MethodInfo V)) (ops : List (Op V)) (c : Callee)
    (mi : MethodInfo V) (tid : Nat) (args : List V) (u : V → V) (e : Expectation V) (b : Build V)
    (f : OnceClosure V) (t : Option Nat)
    (h : Answered env sts ops c mi tid args u e) (hk : mi.base.kind = .static)
    (hf : returnSetter .static e.chain = some b) (hb : onceOf b = some (f, t))
    (ht : t = none ∨ t = some tid) (h0 : earlier env sts ops e = []) :
    nextObs env sts ops (c.op tid args u) = .value (f.run args) ∧
    runsOf env sts (ops ++ [c.op tid args u]) = runsOf env sts ops ++ [⟨f.tag, tid, args⟩] := by
  cases b <;> simp [onceOf] at hb
  · obtain ⟨rfl, rfl⟩ := hb
    have := h.fold (.static (.once _) false) (by rw [hk, hf]; rfl) rfl _ rfl
    rw [h0] at this
    simp only [List.foldl_nil, Ret.reply, Ret.ran, StaticRfunc.callMut] at this
    rename_i f
    generalize f.run args = o at *
    cases o <;> exact this
  · obtain ⟨rfl, rfl⟩ := hb
    simp at ht
    subst ht
    have := h.fold (.static (.onceSt _ _) false) (by rw [hk, hf]; rfl) rfl _ rfl
    rw [h0] at this
    simp only [List.foldl_nil, Ret.reply, Ret.ran, StaticRfunc.callMut, ↓reduceIte] at this
    rename_i f
    generalize f.run args = o at *
    cases o <;> exact this

/-- **C15, later calls**: every later call answered by a `return_once` expectation panics without running
the function, also if the first call panicked or came from a foreign thread.  If the first call went
well the second one says that it was called twice; all others fail on the poisoned lock. -/
theorem C15_later (env : Env V) (sts : List (MethodInfo V)) (ops : List (Op V)) (c : Callee)
    (mi : MethodInfo V) (tid : Nat) (args : List V) (u : V → V) (e : Expectation V) (b : Build V)
    (f : OnceClosure V) (t : Option Nat)
    (h : Answered env sts ops c mi tid args u e) (hk : mi.base.kind = .static)
    (hf : returnSetter .static e.chain = some b) (hb : onceOf b = some (f, t))
    (x : Hit V) (xs : List (Hit V)) (h0 : earlier env sts ops e = x :: xs) :
    runsOf env sts (ops ++ [c.op tid args u]) = runsOf env sts ops ∧
    ∃ p, nextObs env sts ops (c.op tid args u) = .value (.error p) ∧
      ((xs = [] ∧ (∃ v, f.run x.args = .ok v) ∧ (t = none ∨ t = some x.tid)) →
        p = .ret mi.base.funcname e.common.matcher.display .twice) ∧
      (¬ (xs = [] ∧ (∃ v, f.run x.args = .ok v) ∧ (t = none ∨ t = some x.tid)) → p = .poisoned) := by
  cases b <;> simp [onceOf] at hb
  · obtain ⟨rfl, rfl⟩ := hb
    rename_i f
    have hfold := fold_once env.nightly (mi.fn c.key).default f x xs
    rw [← h0] at hfold
    obtain ⟨h1, h2⟩ := h.fold (.static (.once f) false) (by rw [hk, hf]; rfl) rfl _ hfold
    rw [h1, h2]
    cases hx : f.run x.args <;> cases xs <;>
      simp [Ret.reply, Ret.ran, hx, StaticRfunc.callMut, runEntry]
  · obtain ⟨rfl, rfl⟩ := hb
    rename_i o f
    have hfold := fold_onceSt env.nightly (mi.fn c.key).default o f x xs
    rw [← h0] at hfold
    obtain ⟨h1, h2⟩ := h.fold (.static (.onceSt o f) false) (by rw [hk, hf]; rfl) rfl _ hfold
    rw [h1, h2]
    by_cases hxo : x.tid = o
    · subst hxo
      cases hx : f.run x.args <;> cases xs <;>
        simp [Ret.reply, Ret.ran, hx, StaticRfunc.callMut, runEntry]
    · have hxo' : ¬ o = x.tid := fun h => hxo h.symm
      simp [Ret.reply, Ret.ran, hxo, hxo', runEntry]

/-- Whether a builder call supplies the once closure named `τ`. -/
def Expectation.armed (τ : Nat) (e : Expectation V) : Bool :=
  match e.ret with
  | .static (.once f) _ => f.tag == τ
  | .static (.onceSt _ f) _ => f.tag == τ
  | _ => false

theorem armed_later {τ : Nat} {e e' : Expectation V} (h : e.ret.later e'.ret) (ha : e'.armed τ = true) :
    e.armed τ = true := by
  unfold Expectation.armed at ha ⊢
  rcases hr : e.ret with r | r | ⟨r, p⟩ <;> rcases hr' : e'.ret with r' | r' | ⟨r', p'⟩ <;>
    rw [hr, hr'] at h <;> rw [hr'] at ha <;> simp [Ret.later] at h ha ⊢
  cases r <;> cases r' <;> simp_all [StaticRfunc.later]

/-- An answered call that runs a once closure uses it up. -/
theorem ran_armed {nightly : Bool} {d : Option V} {tid : Nat} {args : List V} {e e' : Expectation V} {τ : Nat}
    {x : Hit V} (ht : x.tid = tid) (ha : x.args = args)
    (hran : e.ret.ran nightly d tid args = some τ) (hone : ∀ f, e.ret ≠ .static (.mut f) false)
    (hst : ∀ t f, e.ret ≠ .static (.mutSt t f) false) (hrm : e.ret.kind = .static)
    (he : e'.ret = e.ret.next nightly d x) : e.armed τ = true ∧ e'.armed τ = false := by
  subst ht ha
  unfold Expectation.armed
  rw [he]
  rcases hr : e.ret with r | r | ⟨r, _ | _⟩ <;> rw [hr] at hran hrm <;> simp [Ret.kind] at hrm
  · rcases r with _ | _ | f | ⟨t, f⟩ | f | ⟨t, f⟩ <;>
      simp [Ret.ran, StaticRfunc.callMut] at hran
    · exact absurd hr (hone f)
    · exact absurd hr (hst t f)
    · cases hf : f.run x.args <;> simp [hf] at hran <;> simp [Ret.next, StaticRfunc.callMut, hf, hran]
    · by_cases hxt : x.tid = t
      · cases hf : f.run x.args <;> simp [hf, hxt] at hran <;> simp [Ret.next, StaticRfunc.callMut, hf, hran, hxt]
      · simp [hxt] at hran
  · simp [Ret.ran] at hran

theorem armed_new {nightly : Bool} {info : FnInfo V} {e : Expectation V} {τ : Nat} (hc : Cfg nightly info e)
    (ha : e.armed τ = true) : ∃ b ∈ e.chain, tagOf b = some τ := by
  have hr := hc.ret
  rw [lastOf_setter] at hr
  cases hs : returnSetter info.kind e.chain with
  | none =>
    rw [hs] at hr
    simp only [retDefault] at hr
    rcases hk : info.kind <;> rw [hk] at hr <;> simp [Expectation.armed, hr] at ha
  | some b =>
    obtain ⟨h1, h2⟩ := returnSetter_mem hs
    refine ⟨b, h1, ?_⟩
    rw [hs] at hr
    simp only at hr
    rcases hk : info.kind <;> rw [hk] at hr h2 <;> cases b <;> simp [retOf] at hr h2 <;>
      simp [Expectation.armed, hr] at ha <;> simp [tagOf, ha]

/-- Runs of a once closure never outnumber the builder calls that supplied it. -/
theorem once_count (env : Env V) (sts : List (MethodInfo V)) (ops : List (Op V)) (τ : Nat)
    (hone : ∀ b ∈ buildsOf ops, tagOf b = some τ → (onceOf b).isSome) :
    (runsOf env sts ops).countP (·.tag == τ) ≤ (buildsOf ops).countP fun b => tagOf b == some τ := by
  have key := run_induct (env := env)
    (fun done l w => SysInv env.nightly done l w ∧ (∀ e ∈ l, ∀ b ∈ e.chain, b ∈ buildsOf done) ∧
      ((∀ b ∈ buildsOf done, tagOf b = some τ → (onceOf b).isSome) →
        w.runs.countP (·.tag == τ) + l.countP (·.armed τ) ≤ (buildsOf done).countP fun b => tagOf b == some τ))
    ?_ ops (Sys.init sts) [] ⟨⟨by simp [Sys.init_all], by simp [Sys.init_all], by simp [Sys.init]⟩,
      by simp [Sys.init_all], fun _ => by rw [Sys.init_all]; simp [Sys.init]⟩
  · have := key.2.2 (by simpa using hone)
    simp only [List.nil_append] at this
    unfold runsOf
    omega
  · rintro done op l w ob l' w' ⟨hI, hC, hN⟩ hE
    refine ⟨hI.step hE, chain_step hC hE, fun hone => ?_⟩
    have hsplit : buildsOf (done ++ [op]) = buildsOf done ++ op.builds?.getD [] := by
      simp [buildsOf]
    have hmono : ∀ b ∈ buildsOf done, b ∈ buildsOf (done ++ [op]) := by
      intro b hb; rw [hsplit]; exact List.mem_append_left _ hb
    have hN := hN (fun b hb => hone b (hmono b hb))
    rw [hsplit, List.countP_append]
    cases hE with
    | quiet hs _ =>
      have := hs.countP_le (p := fun e : Expectation V => e.armed τ)
      omega
    | @expect bs info ob l' r hb hr hr' hins =>
      obtain ⟨l1, l2, rfl, rfl⟩ := hins
      rw [hb]
      simp only [Option.getD_some, List.countP_append, List.countP_cons] at hN ⊢
      have hcfg : Cfg env.nightly info (newExp env.nightly info bs w) :=
        (Cfg.new env.nightly info w.fresh).builds w.seqs bs
      by_cases ha : (newExp env.nightly info bs w).armed τ = true
      · obtain ⟨b, hb1, hb2⟩ := armed_new hcfg ha
        obtain ⟨pre, h1, h2⟩ := Expectation.builds_prefix bs (Expectation.new env.nightly info w.fresh) w.seqs
        unfold newExp at hb1
        rw [h2] at hb1
        simp only [Expectation.new, List.nil_append] at hb1
        have : 0 < bs.countP fun b => tagOf b == some τ :=
          List.countP_pos_iff.mpr ⟨b, h1.subset hb1, by simp [hb2]⟩
        simp only [ha, ↓reduceIte]
        omega
      · simp only [ha]
        simp
        omega
    | @pred tid args upd e e' p ob l' hc hch hm ho =>
      obtain ⟨l1, l2, rfl, rfl⟩ := hch
      have he' := Expectation.matches_err hm
      have : e'.armed τ = e.armed τ := by rw [he']; rfl
      simp only [List.countP_append, List.countP_cons, this] at hN ⊢
      omega
    | @hit tid args upd e ob l' info hc hm hch ho =>
      obtain ⟨l1, l2, rfl, rfl⟩ := hch
      have hcr := Expectation.call_ret (cx := ⟨env.nightly, tid, env.dbg, upd⟩) (info := info) (args := args)
        (w := w) (Expectation.matches_mpoison hm)
      have hlat := Expectation.call_later ⟨env.nightly, tid, env.dbg, upd⟩ info args e w
      generalize e.call ⟨env.nightly, tid, env.dbg, upd⟩ info args w = o at *
      simp only at hcr
      have hle : o.2.1.armed τ = true → e.armed τ = true := armed_later hlat
      simp only [List.countP_append, List.countP_cons] at hN ⊢
      have hno : w.runs = o.2.2.runs → _ := fun h : w.runs = o.2.2.runs => show
          o.2.2.runs.countP (·.tag == τ) + (l1.countP (·.armed τ) + (l2.countP (·.armed τ) +
            if o.2.1.armed τ = true then 1 else 0)) ≤
          ((buildsOf done).countP fun b => tagOf b == some τ) +
            (op.builds?.getD []).countP fun b => tagOf b == some τ by
        rw [← h]
        by_cases ha : o.2.1.armed τ = true
        · simp only [ha, hle ha, ↓reduceIte] at hN ⊢; omega
        · simp only [ha] at hN ⊢; simp at hN ⊢; omega
      rcases hcr with ⟨_, _, _, hr, _⟩ | ⟨_, hret, hr, hl⟩
      · exact hno hr.symm
      · cases hran : e.ret.ran env.nightly info.default tid args with
        | none =>
          rw [hran] at hr
          exact hno (by simpa [runEntry] using hr.symm)
        | some σ =>
          rw [hran] at hr
          simp only [runEntry] at hr
          by_cases hσ : σ = τ
          · subst hσ
            have hmem : e ∈ l1 ++ e :: l2 := by simp
            have hL := hI.live e hmem
            obtain ⟨b, hb1, hb2, _⟩ := ran_setter hL.ret.1 hran
            obtain ⟨hbm, hbs⟩ := returnSetter_mem hb1
            have hso := hone b (hmono b (hC e hmem b hbm)) hb2
            have hst : e.info.kind = .static ∧ ((∃ f, b = .returnOnce f) ∨ ∃ t f, b = .returnOnceSt t f) := by
              cases b <;> simp [onceOf] at hso <;> cases hk : e.info.kind <;> simp [hk, retOf] at hbs <;> simp
            have hlr := hL.ret.1
            rw [lastOf_setter, hb1] at hlr
            obtain ⟨ha1, ha2⟩ := ran_armed (x := ⟨e.gid, tid, args, true, upd⟩) rfl rfl hran (by
                intro f hf
                rw [hf, hst.1] at hlr
                rcases hst.2 with ⟨g, rfl⟩ | ⟨t, g, rfl⟩ <;>
                  simp [retOf, Ret.later, StaticRfunc.later] at hlr) (by
                intro t f hf
                rw [hf, hst.1] at hlr
                rcases hst.2 with ⟨g, rfl⟩ | ⟨t, g, rfl⟩ <;>
                  simp [retOf, Ret.later, StaticRfunc.later] at hlr)
              (hL.ret.2.trans hst.1) hret
            rw [hr]
            simp only [List.countP_append, List.countP_cons, List.countP_nil, ha1, ha2, ↓reduceIte,
              beq_self_eq_true, Bool.false_eq_true] at hN ⊢
            omega
          · have : o.2.2.runs.countP (·.tag == τ) = w.runs.countP (·.tag == τ) := by
              rw [hr]
              simp [List.countP_append, List.countP_cons, hσ]
            by_cases ha : o.2.1.armed τ = true
            · simp only [ha, hle ha, ↓reduceIte, this] at hN ⊢; omega
            · simp only [ha, this] at hN ⊢; simp at hN ⊢; omega

/-- **C15, at most once**: over a whole program, a closure given to `return_once` or `return_once_st` in a
single place is executed at most once, whatever panics are caught, whatever threads call, whatever
checks fail.  (`τ` is the ghost name identifying the closure.) -/
theorem C15_at_most_once (env : Env V) (sts : List (MethodInfo V)) (ops : List (Op V)) (τ : Nat)
    (hone : ∀ b ∈ buildsOf ops, tagOf b = some τ → (onceOf b).isSome)
    (huniq : ((buildsOf ops).countP fun b => tagOf b == some τ) ≤ 1) :
    (runsOf env sts ops).countP (·.tag == τ) ≤ 1 :=
  Nat.le_trans (once_count env sts ops τ hone) huniq

/-! ## C16: no return value set -/

/-- **C16 on stable**: a call answered by an expectation without return value panics with the documented
message naming the function and its matcher; for methods returning an owned value, calls after the
first one panic on the poisoned lock instead. -/
theorem C16_stable (env : Env V) (sts : List (MethodInfo V)) (ops : List (Op V)) (c : Callee)
    (mi : MethodInfo V) (tid : Nat) (args : List V) (u : V → V) (e : Expectation V)
    (h : Answered env sts ops c mi tid args u e) (hn : env.nightly = false)
    (hf : returnSetter mi.base.kind e.chain = none) :
    nextObs env sts ops (c.op tid args u) = .value (.error
      (if mi.base.kind = .static ∧ (earlier env sts ops e).length ≠ 0 then .poisoned
       else .ret mi.base.funcname e.common.matcher.display .needNightly)) := by
  rcases hk : mi.base.kind with _ | _ | _ <;> rw [hk] at hf
  · have hr0 : (match returnSetter mi.base.kind e.chain with
      | some b => (retOf mi.base.kind b).getD (retDefault env.nightly (mi.fn c.key))
      | none => retDefault env.nightly (mi.fn c.key)) = .static .dflt false := by
      rw [hk, hf]; simp [retDefault, MethodInfo.fn, hk]
    cases h0 : earlier env sts ops e with
    | nil =>
      have := (h.fold _ hr0 (by simp [Ret.needsDefault, hn]) (.static .dflt false) (by rw [h0]; rfl)).1
      simpa [Ret.reply, StaticRfunc.callMut, returnDefault, hn] using this
    | cons x xs =>
      have := (h.fold _ hr0 (by simp [Ret.needsDefault, hn]) (.static .dflt true)
        (by rw [h0, hn]; exact fold_dflt_stable _ _ _)).1
      simpa [Ret.reply] using this
  · have := (h.fold (.ref (.dflt none)) (by rw [hk, hf]; simp [retDefault, MethodInfo.fn, hk, hn]) rfl _
      (fold_ref _ _ _ _)).1
    simpa [Ret.reply, RefRfunc.call, defaultErr, hn] using this
  · have := (h.fold (.refMut (.dflt none)) (by rw [hk, hf]; simp [retDefault, MethodInfo.fn, hk, hn]) rfl _
      (fold_refMut_none _ _ _)).1
    simpa [Ret.reply, RefMutRfunc.callMut, defaultErr, hn] using this

/-- **C16 with the `nightly` feature**: if the return type has a default `v`, every such call returns it.
(For `&mut self` methods the reference points to the one stored default, so it shows what earlier
callers wrote there.) -/
theorem C16_nightly (env : Env V) (sts : List (MethodInfo V)) (ops : List (Op V)) (c : Callee)
    (mi : MethodInfo V) (tid : Nat) (args : List V) (u : V → V) (e : Expectation V) (v : V)
    (h : Answered env sts ops c mi tid args u e) (hn : env.nightly = true)
    (hf : returnSetter mi.base.kind e.chain = none) (hd : (mi.fn c.key).default = some v) :
    nextObs env sts ops (c.op tid args u) = .value (.ok
      (if mi.base.kind = .refMut then (earlier env sts ops e).foldl (fun x h => h.upd x) v else v)) := by
  rcases hk : mi.base.kind with _ | _ | _ <;> rw [hk] at hf
  · have hinfo := target_info env sts ops c mi h.usable.1 e h.target
    have hdf := target_dflt env sts ops c e h.target hn
    rw [hinfo, lastOf_setter] at hdf
    have hk' : (mi.fn c.key).kind = .static := hk
    rw [hk', hf] at hdf
    have hret := hdf (by simp [retDefault, hk']) v hd
    obtain ⟨hm, h1, _⟩ := step_answer env sts ops c mi tid args u e true h.usable h.target h.log
    have hc := Expectation.call_ret (cx := ⟨env.nightly, tid, env.dbg, c.upd u⟩) (info := mi.fn c.key)
      (args := args) (w := (Sys.run env ops (Sys.init sts)).2.world) (Expectation.matches_mpoison hm)
    have hl := h.log
    obtain ⟨_, _, h2⟩ := step_answer env sts ops c mi tid args u e true h.usable h.target h.log
    rw [h2] at hl
    simp only at hc h1
    show ((Sys.run env ops (Sys.init sts)).2.step env (c.op tid args u)).1 = _
    rw [h1]
    rcases hc with ⟨p, _, _, _, hl'⟩ | ⟨ha, _, _, _⟩
    · rw [hl'] at hl
      simp at hl
    · rw [ha, hret]
      simp [Ret.reply, StaticRfunc.callMut, returnDefault, hn, hd]
  · have := (h.fold (.ref (.dflt (some v))) (by rw [hk, hf]; simp [retDefault, hn, hd]; simp [MethodInfo.fn, hk])
      rfl _ (fold_ref _ _ _ _)).1
    simpa [Ret.reply, RefRfunc.call] using this
  · have := (h.fold (.refMut (.dflt (some v))) (by rw [hk, hf]; simp [retDefault, hn, hd]; simp [MethodInfo.fn, hk])
      rfl _ (fold_refMut_dflt _ _ _ _)).1
    simpa [Ret.reply, RefMutRfunc.callMut] using this

/-! ## C17: `return_var` -/

/-- **C17**: after `return_var(v)` each answered call yields a reference to the one variable: the value
found there is `v` with all writes made through the references returned by earlier answered calls
applied in order.  (`upd` is what a caller does through the reference it got.) -/
theorem C17_var (env : Env V) (sts : List (MethodInfo V)) (ops : List (Op V)) (c : Callee)
    (mi : MethodInfo V) (tid : Nat) (args : List V) (u : V → V) (e : Expectation V) (v : V)
    (h : Answered env sts ops c mi tid args u e) (hk : mi.base.kind = .refMut)
    (hf : returnSetter .refMut e.chain = some (.returnVar v)) :
    nextObs env sts ops (c.op tid args u) =
      .value (.ok ((earlier env sts ops e).foldl (fun x h => h.upd x) v)) := by
  have := (h.fold (.refMut (.var v)) (by rw [hk, hf]; rfl) rfl _ (fold_var _ _ _ _)).1
  simpa [Ret.reply, RefMutRfunc.callMut] using this

/-- **C17**, the other half: with `returning(f)` the value found is the fresh result of the closure, whatever
was written through references returned before: two programs that differ only in those writes get the
same result. -/
theorem C17_fresh (env : Env V) (sts : List (MethodInfo V)) (ops ops' : List (Op V)) (c : Callee)
    (mi : MethodInfo V) (tid : Nat) (args : List V) (u u' : V → V) (e e' : Expectation V) (f : Closure V)
    (h : Answered env sts ops c mi tid args u e) (h' : Answered env sts ops' c mi tid args u' e')
    (hk : mi.base.kind = .refMut)
    (hf : returnSetter .refMut e.chain = some (.returning f))
    (hf' : returnSetter .refMut e'.chain = some (.returning f))
    (hsame : (earlier env sts ops e).map (·.args) = (earlier env sts ops' e').map (·.args)) :
    nextObs env sts ops (c.op tid args u) = nextObs env sts ops' (c.op tid args u') := by
  rw [(C13_returning_mut env sts ops c mi tid args u e f h hk hf).1,
    (C13_returning_mut env sts ops' c mi tid args u' e' f h' hk hf').1, hsame]

/-! ## C18: `_st` closures -/

/-- **C18**, return closures: whatever the program, a closure that is only ever given to `returning_st` or
`return_once_st` on thread `o` is only executed on thread `o`.  (`τ` is its ghost name.) -/
theorem C18_runs (env : Env V) (sts : List (MethodInfo V)) (ops : List (Op V)) (τ o : Nat)
    (hst : ∀ b ∈ buildsOf ops, tagOf b = some τ → ownerOf b = some o) :
    ∀ r ∈ runsOf env sts ops, r.tag = τ → r.tid = o := by
  induction ops using snoc_induct with
  | nil => simp [runsOf, Sys.run, Sys.init]
  | snoc ops op ih =>
    have hsub : ∀ b ∈ buildsOf ops, b ∈ buildsOf (ops ++ [op]) := by
      intro b hb; simp only [buildsOf, List.flatMap_append, List.mem_append]; exact .inl hb
    have ih := ih fun b hb => hst b (hsub b hb)
    intro r hr
    unfold runsOf at hr
    rw [run_snoc] at hr
    rcases runs_step env sts ops op with h | ⟨e, he, tid, args, upd, b, σ, _, _, h3, h4, h5, h6⟩
    ·
      rw [h] at hr; exact ih r hr
    ·
      rw [h6] at hr
      rcases List.mem_append.mp hr with hr | hr
      · exact ih r hr
      · simp at hr
        subst hr
        rintro rfl
        exact h5 o (hst b (hsub b (chain_run env sts ops e he b (returnSetter_mem h3).1)) h4)

/-- The return setting is bound to thread `o` (or used up, or behind a poisoned lock). -/
def Ret.boundTo (o : Nat) : Ret V → Prop
  | .static _ true => True
  | .static (.mutSt t _) false => t = o
  | .static (.onceSt t _) false => t = o
  | .static .expired false => True
  | .refMut (.mutSt t _ _) => t = o
  | _ => False

theorem Ret.boundTo_next {o : Nat} {r : Ret V} (h : r.boundTo o) (nightly : Bool) (d : Option V) (x : Hit V) :
    (r.next nightly d x).boundTo o := by
  rcases r with r | r | ⟨r, _ | _⟩
  · exact h
  · rcases r with _ | _ | ⟨t, f, out⟩ | _ <;> simp only [Ret.boundTo] at h
    subst h
    simp only [Ret.next, RefMutRfunc.callMut]
    repeat' split
    all_goals simp_all [Ret.boundTo, RefMutRfunc.write]
    all_goals (rename_i h; split at h <;> simp at h)
  · rcases r with _ | _ | _ | ⟨t, f⟩ | _ | ⟨t, f⟩ <;> simp only [Ret.boundTo] at h
    all_goals
      simp only [Ret.next, StaticRfunc.callMut]
      repeat' split
      all_goals simp_all [Ret.boundTo]
  · exact h

theorem Ret.boundTo_fold {o : Nat} (nightly : Bool) (d : Option V) (xs : List (Hit V)) {r : Ret V}
    (h : r.boundTo o) : (xs.foldl (Ret.next nightly d) r).boundTo o := by
  induction xs generalizing r with
  | nil => exact h
  | cons x xs ih => exact ih (Ret.boundTo_next h nightly d x)

theorem Ret.boundTo_foreign {o tid : Nat} {r : Ret V} (h : r.boundTo o) (ht : tid ≠ o) (nightly : Bool)
    (d : Option V) (fail : RetErr → Panic) (args : List V) :
    r.ran nightly d tid args = none ∧ ∃ p, r.reply nightly d fail tid args = .error p := by
  rcases r with r | r | ⟨r, _ | _⟩
  · exact absurd h (by simp [Ret.boundTo])
  · rcases r with _ | _ | ⟨t, f, out⟩ | _ <;> simp only [Ret.boundTo] at h
    subst h
    simp [Ret.ran, Ret.reply, RefMutRfunc.callMut, ht]
  · rcases r with _ | _ | _ | ⟨t, f⟩ | _ | ⟨t, f⟩ <;> simp only [Ret.boundTo] at h <;>
      (try subst h) <;> simp_all [Ret.ran, Ret.reply, StaticRfunc.callMut]
  · simp [Ret.ran, Ret.reply]

/-- **C18**, return setters: a call from a foreign thread answered by an expectation whose return value was
set by `returning_st`, `return_const_st` or `return_once_st` panics and runs nothing. -/
theorem C18_foreign (env : Env V) (sts : List (MethodInfo V)) (ops : List (Op V)) (c : Callee)
    (mi : MethodInfo V) (tid : Nat) (args : List V) (u : V → V) (e : Expectation V) (b : Build V) (o : Nat)
    (h : Answered env sts ops c mi tid args u e)
    (hf : returnSetter mi.base.kind e.chain = some b) (hb : ownerOf b = some o) (ho : tid ≠ o) :
    runsOf env sts (ops ++ [c.op tid args u]) = runsOf env sts ops ∧
    ∃ p, nextObs env sts ops (c.op tid args u) = .value (.error p) := by
  obtain ⟨r0, hr0⟩ := Option.isSome_iff_exists.mp (returnSetter_mem hf).2
  have hbound : r0.boundTo o ∧ r0.needsDefault env.nightly = false := by
    rcases hk : mi.base.kind <;> rw [hk] at hr0 <;> cases b <;> simp [ownerOf] at hb <;>
      simp [retOf] at hr0 <;> subst hb <;> subst hr0 <;> exact ⟨rfl, rfl⟩
  have := h.fold r0 (by rw [hf]; simp [hr0]) hbound.2 _ rfl
  obtain ⟨h1, p, h2⟩ := Ret.boundTo_foreign (Ret.boundTo_fold env.nightly (mi.fn c.key).default
    (earlier env sts ops e) hbound.1) ho env.nightly (mi.fn c.key).default
    (.ret mi.base.funcname e.common.matcher.display) args
  refine ⟨?_, p, ?_⟩
  · simpa [h1, runEntry] using this.2
  · simpa [h2] using this.1

/-- The scan never passes an expectation whose matcher belongs to another thread. -/
theorem callScan_foreign (cx : Cx V) (info : FnInfo V) (args : List V) (n : Nat) (pre post : List (Expectation V))
    (e : Expectation V) (w : World V) (o : Nat) (f : List V → Except Panic Bool)
    (hm : e.common.matcher = .funcSt o f) (ho : cx.tid ≠ o) :
    (∃ x ∈ pre, ∃ passed, (callScan cx info args n (pre ++ e :: post) w).2.2.log =
      w.log ++ [⟨x.gid, cx.tid, args, passed, cx.upd⟩]) ∨
    ((callScan cx info args n (pre ++ e :: post) w).2.2 = w ∧
      ∃ p, (callScan cx info args n (pre ++ e :: post) w).1 = .error p) := by
  induction pre with
  | nil =>
    right
    simp only [List.nil_append, callScan, Expectation.matches, Common.matches, hm, Matcher.matches, ho, ↓reduceIte]
    cases e.common.mpoison <;> simp
  | cons x pre ih =>
    have key : ∀ g, (∃ x ∈ pre, ∃ passed, (callScan cx info args n (pre ++ e :: post) w).2.2.log =
        w.log ++ [⟨x.gid, cx.tid, args, passed, cx.upd⟩]) →
        ∃ y ∈ g :: pre, ∃ passed, (callScan cx info args n (pre ++ e :: post) w).2.2.log =
          w.log ++ [⟨y.gid, cx.tid, args, passed, cx.upd⟩] := by
      rintro g ⟨y, hy, h⟩
      exact ⟨y, List.mem_cons_of_mem _ hy, h⟩
    simp only [List.cons_append, callScan]
    rcases hx : x.matches cx.tid args with ⟨_ | _ | _, x'⟩
    · right; simp
    · rcases ih with ih | ih
      · exact .inl (key x ih)
      · exact .inr ih
    · have hg : x'.gid = x.gid := by
        have : x' = (x.matches cx.tid args).2 := by rw [hx]
        rw [this]; rfl
      simp only
      rcases x'.isDone with p | d
      · right; simp
      · simp only
        split
        · left
          obtain ⟨b, _, hW⟩ := Expectation.call_world cx info args x' w
          refine ⟨x, List.mem_cons_self .., b, ?_⟩
          rw [← hg]
          rcases hc : x'.call cx info args w with ⟨_ | _, x'', w'⟩ <;> simp only <;>
            rw [hc] at hW <;> (simp only at hW; rw [hW])
        · rcases ih with ih | ih
          · exact .inl (key x ih)
          · exact .inr ih

/-- **C18**, `withf_st`: a call from a foreign thread is either taken by an expectation declared before the
`withf_st` one, or it panics without being taken by any expectation and without running any return
closure. -/
theorem C18_withf_st (env : Env V) (sts : List (MethodInfo V)) (ops : List (Op V)) (c : Callee)
    (mi : MethodInfo V) (tid : Nat) (args : List V) (u : V → V) (e : Expectation V) (o : Nat)
    (f : List V → Except Panic Bool)
    (hu : (Sys.run env ops (Sys.init sts)).2.usable c mi)
    (he : e ∈ (Sys.run env ops (Sys.init sts)).2.target c)
    (hm : lastOf matcherOf .always e.chain = .funcSt o f) (ho : tid ≠ o) :
    let s := (Sys.run env ops (Sys.init sts)).2
    let t := s.step env (c.op tid args u)
    (∃ e' ∈ s.target c, e'.gid < e.gid ∧ ∃ passed,
      t.2.world.log = s.world.log ++ [⟨e'.gid, tid, args, passed, c.upd u⟩]) ∨
    ((∃ p, t.1 = .value (.error p)) ∧ t.2.world = s.world) := by
  intro s t
  obtain ⟨h1, h2, _, _⟩ := step_call env s c mi hu tid args u
  have hL := (sysInv_run env sts ops).live e (target_all _ c e he)
  obtain ⟨pre, post, hsplit⟩ := List.append_of_mem he
  have hS := (target_sorted env sts ops c)
  have := callScan_foreign ⟨env.nightly, tid, env.dbg, c.upd u⟩ (mi.fn c.key) args (s.target c).length pre post e
    s.world o f (by rw [hL.matcher, hm]) ho
  change s.target c = _ at hsplit
  have hs' : pre ++ e :: post = s.target c := hsplit.symm
  rw [hs'] at this
  rcases this with ⟨x, hx, b, hl⟩ | ⟨hw, p, hp⟩
  · left
    refine ⟨x, by rw [hsplit]; simp [hx], ?_, b, ?_⟩
    · change List.Pairwise _ ((s.target c).map (·.gid)) at hS
      rw [hsplit, List.map_append, List.pairwise_append] at hS
      exact hS.2.2 _ (List.mem_map_of_mem hx) _ (by simp)
    · show (s.step env (c.op tid args u)).2.world.log = _
      rw [h2]; exact hl
  · right
    refine ⟨⟨p, ?_⟩, ?_⟩
    · show (s.step env (c.op tid args u)).1 = _
      rw [h1]
      simp only [Expectations.call, hp, expectMatch]
    · show (s.step env (c.op tid args u)).2.world = _
      rw [h2]; exact hw

/-- **C18**, `withf_st`: the predicate is not consulted on a foreign thread: with any other predicate in its
place the call has the same outcome and effects. -/
theorem C18_withf_st_unused (cx : Cx V) (info : FnInfo V) (args : List V) (pre post : List (Expectation V))
    (e : Expectation V) (w : World V) (o : Nat) (f f' : List V → Except Panic Bool)
    (hm : e.common.matcher = .funcSt o f) (ho : cx.tid ≠ o) :
    let e' := { e with common := { e.common with matcher := .funcSt o f' } }
    let r := Expectations.call cx info args (pre ++ e :: post) w
    let r' := Expectations.call cx info args (pre ++ e' :: post) w
    r.1 = r'.1 ∧ r.2.2 = r'.2.2 := by
  intro e' r r'
  have key : ∀ n, (callScan cx info args n (pre ++ e :: post) w).1 = (callScan cx info args n (pre ++ e' :: post) w).1 ∧
      (callScan cx info args n (pre ++ e :: post) w).2.2 = (callScan cx info args n (pre ++ e' :: post) w).2.2 := by
    intro n
    clear r r'
    induction pre with
    | nil =>
      simp only [List.nil_append, callScan, Expectation.matches, Common.matches, hm, Matcher.matches, ho, ↓reduceIte, e']
      cases e.common.mpoison <;> simp
    | cons x pre ih =>
      simp only [List.cons_append, callScan]
      rcases hx : x.matches cx.tid args with ⟨_ | _ | _, x'⟩
      · simp
      · exact ih
      · simp only
        rcases x'.isDone with p | d
        · simp
        · simp only
          split
          · rcases x'.call cx info args w with ⟨_ | _, x'', w'⟩ <;> simp
          · exact ih
  have hl : (pre ++ e :: post).length = (pre ++ e' :: post).length := by simp
  simp only [r, r', Expectations.call, ← hl]
  exact key _

/-! ## The hypotheses are met -/

section Examples

/-- One object with one method of the given return kind, one expectation, then some calls. -/
def oneExp (k : RetKind) (bs : List (Build Nat)) (calls : List (Nat × List Nat)) : List (Op Nat) :=
  .new [⟨false, ⟨k, "f", "M::f", none⟩, fun _ => some 40⟩] :: .expect 0 0 0 bs ::
    calls.map fun c => .call 0 0 0 c.1 c.2 (· + 1)

def envOf (nightly : Bool) : Env Nat := ⟨nightly, toString, id⟩

/-- `returning` with hidden state, after two answered calls. -/
example : ∃ mi e, Answered (envOf false) [] (oneExp .static
      [.returning { run := fun h as => .ok (h.length + as.sum), tag := 7 }] [(0, [1]), (3, [2])])
      (.inst 0 0 0) mi 1 [5] id e ∧
    returnSetter .static e.chain = some (.returning { run := fun h as => .ok (h.length + as.sum), tag := 7 }) ∧
    (earlier (envOf false) [] (oneExp .static
      [.returning { run := fun h as => .ok (h.length + as.sum), tag := 7 }] [(0, [1]), (3, [2])]) e).length = 2 :=
  ⟨_, _, ⟨⟨rfl, trivial⟩, List.mem_singleton.mpr rfl, rfl⟩, rfl, rfl⟩

/-- `return_once`, second call. -/
example : ∃ mi e, Answered (envOf false) [] (oneExp .static
      [.returnOnce { run := fun as => .ok as.sum, tag := 7 }] [(0, [1])])
      (.inst 0 0 0) mi 1 [5] id e ∧
    returnSetter .static e.chain = some (.returnOnce { run := fun as => .ok as.sum, tag := 7 }) :=
  ⟨_, _, ⟨⟨rfl, trivial⟩, List.mem_singleton.mpr rfl, rfl⟩, rfl⟩

/-- No return value, on stable and on nightly. -/
example : ∀ nightly, ∃ mi e, Answered (envOf nightly) [] (oneExp .static [.times (.n 3)] [(0, [1])])
      (.inst 0 0 0) mi 1 [5] id e ∧ returnSetter .static e.chain = none ∧ (mi.fn 0).default = some 40 := by
  intro n; cases n <;> exact ⟨_, _, ⟨⟨rfl, trivial⟩, List.mem_singleton.mpr rfl, rfl⟩, rfl, rfl⟩

/-- `return_var`: two earlier callers incremented the variable. -/
example : ∃ mi e, Answered (envOf false) [] (oneExp .refMut [.returnVar 10] [(0, [1]), (0, [2])])
      (.inst 0 0 0) mi 0 [5] id e ∧ returnSetter .refMut e.chain = some (.returnVar 10) ∧
    (earlier (envOf false) [] (oneExp .refMut [.returnVar 10] [(0, [1]), (0, [2])]) e).foldl
      (fun x h => h.upd x) 10 = 12 :=
  ⟨_, _, ⟨⟨rfl, trivial⟩, List.mem_singleton.mpr rfl, rfl⟩, rfl, rfl⟩

/-- `return_const_st` called from a foreign thread. -/
example : ∃ mi e, Answered (envOf false) [] (oneExp .static [.returnConstSt 0 10] [(0, [1])])
      (.inst 0 0 0) mi 1 [5] id e ∧ returnSetter .static e.chain = some (.returnConstSt 0 10) :=
  ⟨_, _, ⟨⟨rfl, trivial⟩, List.mem_singleton.mpr rfl, rfl⟩, rfl⟩

/-- `withf_st` called from a foreign thread. -/
example : ∃ mi e, (Sys.run (envOf false) (oneExp .static [.withfSt 0 fun _ => .ok true] [(0, [1])]) (Sys.init [])).2.usable
      (.inst 0 0 0) mi ∧
    e ∈ (Sys.run (envOf false) (oneExp .static [.withfSt 0 fun _ => .ok true] [(0, [1])]) (Sys.init [])).2.target (.inst 0 0 0) ∧
    lastOf matcherOf .always e.chain = .funcSt 0 fun _ => .ok true :=
  ⟨_, _, ⟨rfl, trivial⟩, List.mem_singleton.mpr rfl, rfl⟩

/-- Closure 7 is given to `returning_st` only, and runs. -/
example : let ops := oneExp .static [.returningSt 2 { run := fun _ as => .ok as.sum, tag := 7 }] [(2, [1]), (1, [1])]
    (∀ b ∈ buildsOf ops, tagOf b = some 7 → ownerOf b = some 2) ∧
    (runsOf (envOf false) [] ops).map (fun r => (r.tag, r.tid)) = [(7, 2)] := by
  refine ⟨?_, by decide⟩
  intro b hb
  simp [oneExp, buildsOf, Op.builds?] at hb
  subst hb
  intro _; rfl

end Examples

end Mockall
