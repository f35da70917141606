import Verif.Lemmas.Project
import Verif.Props.Object

/-! # Functions do not influence one another (C28, C30)

The operations of a program on one function (an instantiation of an instance method or of a static function) are
picked out with `Op.at`, what is seen of them with `seenAt`.  Functions may interact through
`Sequence`s, so the statements assume that the function shares no sequence with others. -/

set_option linter.unusedSimpArgs false

namespace Mockall

open Spec

variable {V : Type}

/-- The function an operation is about. -/
def Op.callee? : Op V → Option Callee
  | .expect o m k _ => some (.inst o m k)
  | .call o m k _ _ _ => some (.inst o m k)
  | .sexpect f k _ => some (.stat f k)
  | .scall f k _ _ => some (.stat f k)
  | _ => none

/-- Whether two callees are the same function, given whether it has type parameters. -/
def Callee.same (generic : Bool) : Callee → Callee → Bool
  | .inst o m k, .inst o' m' k' => o == o' && m == m' && sameKey generic k k'
  | .stat f k, .stat f' k' => f == f' && sameKey generic k k'
  | _, _ => false

theorem Op.at_same {c : Callee} {g : Bool} {op : Op V} {mop : MOp V} (h : op.at c g = some mop) :
    ∃ c', op.callee? = some c' ∧ c.same g c' = true := by
  cases c <;> cases op <;> simp [Op.at] at h <;> refine ⟨_, rfl, ?_⟩ <;> simp [Callee.same, sameKey] <;> grind [sameKey]

theorem Callee.same_join {g : Bool} {c c' c'' : Callee} (h : c.same g c'' = true) (h' : c'.same g c'' = true) :
    c.same g c' = true := by
  cases c <;> cases c' <;> cases c'' <;> simp [Callee.same, sameKey] at h h' ⊢ <;> grind

theorem Callee.same_info {g g' : Bool} {c c' c'' : Callee} (h : c.same g c'' = true) (h' : c'.same g' c'' = true)
    (s : Sys V) : s.infoOf c' = s.infoOf c := by
  cases c <;> cases c' <;> cases c'' <;> simp [Callee.same] at h h' <;> simp [Sys.infoOf, *]

/-- An operation moves only the sequences of the expectations on its own function, and of its own builder chain. -/
theorem step_seqs_outside {S : Nat → Prop} (env : Env V) (s : Sys V) (op : Op V)
    (ht : ∀ c, op.callee? = some c → ∀ e ∈ s.target c, e.In fun i => ¬ S i)
    (hb : ∀ bs, op.builds? = some bs → ∀ b ∈ bs, b.In fun i => ¬ S i) :
    Agree S (s.step env op).2.world.seqs s.world.seqs := by
  cases op with
  | new ms => exact Agree.refl _ _
  | expect o m k bs =>
    simp only [Sys.step]
    rcases ho : s.objs[o]? with _ | _ | obj
    · exact Agree.refl _ _
    · exact Agree.refl _ _
    · simp only [Obj.expect]
      rcases hm : obj[m]? with _ | sl
      · exact Agree.refl _ _
      · simp only [(Store.expect_target env.nightly sl.mi k bs sl.store s.world).2.1, Expectations.expect]
        exact Expectation.builds_outside (hb bs rfl) _ _
  | call o m k tid args u =>
    simp only [Sys.step]
    rcases ho : s.objs[o]? with _ | _ | obj
    · exact Agree.refl _ _
    · exact Agree.refl _ _
    · simp only [Obj.call]
      rcases hm : obj[m]? with _ | sl
      · exact Agree.refl _ _
      · simp only [(Store.call_target ⟨env.nightly, tid, env.dbg, u⟩ sl.mi k args sl.store s.world).2.1, Expectations.call]
        refine callScan_outside _ _ _ _ _ _ ?_
        have := ht (.inst o m k) rfl
        simp only [Sys.target, ho, hm] at this
        exact this
  | checkpoint o => simp only [Sys.step]; repeat' split
                    all_goals exact Agree.refl _ _
  | drop o pk => simp only [Sys.step]; repeat' split
                 all_goals exact Agree.refl _ _
  | sexpect f k bs =>
    simp only [Sys.step]
    rcases hf : s.statics[f]? with _ | sf
    · exact Agree.refl _ _
    · simp only [StaticFn.expect]
      split
      · exact Agree.refl _ _
      · simp only [(Store.expect_target env.nightly sf.mi k bs sf.store s.world).2.1, Expectations.expect]
        exact Expectation.builds_outside (hb bs rfl) _ _
  | scall f k tid args =>
    simp only [Sys.step]
    rcases hf : s.statics[f]? with _ | sf
    · exact Agree.refl _ _
    · simp only [StaticFn.call]
      split
      · exact Agree.refl _ _
      · simp only [(Store.call_target ⟨env.nightly, tid, env.dbg, id⟩ sf.mi k args sf.store s.world).2.1, Expectations.call]
        refine callScan_outside _ _ _ _ _ _ ?_
        have := ht (.stat f k) rfl
        simp only [Sys.target, hf] at this
        exact this
  | scheckpoint f => simp only [Sys.step]; split <;> exact Agree.refl _ _
  | sdrop f pk => simp only [Sys.step]; split <;> exact Agree.refl _ _
  | mcheckpoint fs => exact Agree.refl _ _

/-- The mutex of the function, if it is static, is not poisoned. -/
def Sys.unpoisoned (s : Sys V) : Callee → Prop
  | .inst _ _ _ => True
  | .stat f _ => ∀ sf, s.statics[f]? = some sf → sf.poison = false

/-- The program `ops`, run from `s`, uses the sequences `S` for the expectations on function `c` and no
others for them; other functions use other sequences.  It does not checkpoint or drop `c`, and its lock is never
poisoned (only possible for static functions). -/
structure Separate (S : Nat → Prop) (env : Env V) (c : Callee) (mi : MethodInfo V) (ops : List (Op V)) (s : Sys V) :
    Prop where
  keep : ∀ op ∈ ops, op.clears c = false
  mine : ∀ op ∈ ops, ∀ bs, op.at c mi.generic = some (.expect bs) → ∀ b ∈ bs, b.In S
  others : ∀ op ∈ ops, op.at c mi.generic = none → ∀ bs, op.builds? = some bs → ∀ b ∈ bs, b.In fun i => ¬ S i
  locks : ∀ a b, ops = a ++ b → (Sys.run env a s).2.unpoisoned c

/-- The expectations that are live in `s` respect the separation, too. -/
structure Apart (S : Nat → Prop) (c : Callee) (mi : MethodInfo V) (s : Sys V) : Prop where
  info : s.infoOf c = some mi
  mine : ∀ e ∈ s.target c, e.In S
  others : ∀ c', c.same mi.generic c' = false → ∀ e ∈ s.target c', e.In fun i => ¬ S i

theorem Op.at_expect_builds {c : Callee} {g : Bool} {op : Op V} {bs : List (Build V)}
    (h : op.at c g = some (.expect bs)) : op.builds? = some bs := by
  cases c <;> cases op <;> simp [Op.at] at h <;> simp [Op.builds?, h]

theorem Op.at_none_iff {c c' : Callee} {g : Bool} {op : Op V} (hc : op.callee? = some c') :
    op.at c g = none ↔ c.same g c' = false := by
  cases op <;> simp [Op.callee?] at hc <;> subst hc <;> cases c <;>
    simp [Op.at, Callee.same] <;> grind [sameKey]

theorem Apart.step {S : Nat → Prop} {env : Env V} {c : Callee} {mi : MethodInfo V} {s : Sys V} {op : Op V}
    {ops : List (Op V)} (h : Apart S c mi s) (hs : s.Sorted env.nightly) (hsep : Separate S env c mi (op :: ops) s) :
    Apart S c mi (s.step env op).2 ∧ Separate S env c mi ops (s.step env op).2 := by
  have hu : s.usable c mi := ⟨h.info, by
    have := hsep.locks [] _ rfl
    cases c <;> exact this⟩
  have hcl := hsep.keep op (by simp)
  refine ⟨⟨?_, ?_, ?_⟩, ⟨fun o ho => hsep.keep o (by simp [ho]), fun o ho => hsep.mine o (by simp [ho]),
    fun o ho => hsep.others o (by simp [ho]), ?_⟩⟩
  · rcases hat : op.at c mi.generic with _ | mop
    · exact (step_other env s hs c mi h.info op hat hcl).1
    · exact (step_at env s hs c mi hu op mop hat).2.2.2
  · refine step_target_in env s hs c op h.mine ?_
    intro g bs hg hgen
    have := hgen mi h.info
    subst this
    exact hsep.mine op (by simp) bs hg
  · intro c' hc'
    refine step_target_in env s hs c' op (h.others c' hc') ?_
    intro g bs hg hgen
    obtain ⟨c'', h1, h2⟩ := Op.at_same hg
    refine hsep.others op (by simp) ?_ bs (Op.at_expect_builds hg)
    rw [Op.at_none_iff h1]
    rcases hs' : c.same mi.generic c'' with _ | _
    · rfl
    · exfalso
      have hinfo := Callee.same_info hs' h2 s
      have := hgen mi (by rw [hinfo]; exact h.info)
      subst this
      rw [Callee.same_join hs' h2] at hc'
      simp at hc'
  · intro a b hab
    exact hsep.locks (op :: a) b (by rw [hab]; rfl)

/-- The operations on `c` in a whole program behave as those of a program that has nothing but the list of
expectations on `c`. -/
theorem project {S : Nat → Prop} (env : Env V) (c : Callee) (mi : MethodInfo V) (ops : List (Op V)) (s : Sys V)
    (hs : s.Sorted env.nightly) (h : Apart S c mi s) (hsep : Separate S env c mi ops s) (es : List (Expectation V))
    (w : World V) (hsim : AllSim id (s.target c) es) (hw : Agree S s.world.seqs w.seqs) :
    seenAt c mi.generic ops (Sys.run env ops s).1 =
      (MState.run env.nightly env.dbg (mi.fn c.key) (ops.filterMap (Op.at c mi.generic)) ⟨es, w⟩).1 := by
  induction ops generalizing s es w with
  | nil => rfl
  | cons op ops ih =>
    obtain ⟨ha, hb⟩ := h.step hs hsep
    have hs' := hs.step op
    have hu : s.usable c mi := ⟨h.info, by
      have := hsep.locks [] _ rfl
      cases c <;> exact this⟩
    rcases hat : op.at c mi.generic with _ | mop
    · simp only [Sys.run, seenAt, hat, List.filterMap_cons]
      refine ih _ hs' ha hb es w ?_ ?_
      · rw [(step_other env s hs c mi h.info op hat (hsep.keep op (by simp))).2]
        exact hsim
      · refine (step_seqs_outside env s op ?_ (hsep.others op (by simp) hat)).trans hw
        intro c' hc'
        exact h.others c' ((Op.at_none_iff hc').mp hat)
    · obtain ⟨h1, h2, h3, _⟩ := step_at env s hs c mi hu op mop hat
      simp only [Sys.run, seenAt, hat, List.filterMap_cons, h1, Option.toList, MState.run]
      cases mop with
      | expect bs =>
        have hbs := hsep.mine op (by simp) bs hat
        have hnew : Expectation.Sim id (Expectation.new env.nightly (mi.fn c.key) s.world.fresh)
          (Expectation.new env.nightly (mi.fn c.key) w.fresh) := ⟨rfl, rfl, rfl, rfl, fun _ _ => rfl, rfl⟩
        obtain ⟨s1, s2, s3⟩ := hnew.builds (ChainSim.refl id bs) s.world.seqs
        obtain ⟨a1, a2, a3⟩ := Expectation.builds_agree hbs
          (Expectation.new env.nightly (mi.fn c.key) w.fresh) hw
        simp only [MState.step, Expectations.expect] at h2 h3 ⊢
        rw [s1, a1]
        simp only [List.singleton_append, List.cons.injEq, true_and]
        refine ih _ hs' ha hb _ _ ?_ ?_
        · rw [h2]
          refine hsim.append (.cons ?_ .nil)
          rw [← a2]
          exact s2
        · rw [h3]
          simp only
          rw [s3]
          exact a3
      | call tid args u =>
        obtain ⟨r1, r2, r3⟩ := hsim.scan_agree ⟨env.nightly, tid, env.dbg, u⟩ (mi.fn c.key) args h.mine hw
        simp only [MState.step, Expectations.method] at h2 h3 ⊢
        rw [r1]
        simp only [List.singleton_append, List.cons.injEq, true_and]
        refine ih _ hs' ha hb _ _ ?_ ?_
        · rw [h2]; exact r2
        · rw [h3]; exact r3

/-! ## C28: instantiations of generic methods -/

/-- **C28** (and C30 for static functions): take any program `pre`, after which function `c` exists, and any continuation
`ops` in which `c` shares no sequence with others.  What is seen of the operations on `c` is exactly
what a program consisting of just those operations would show, working on a single list of
expectations: nothing else in `ops` matters. -/
theorem C28_projection {S : Nat → Prop} (env : Env V) (sts : List (MethodInfo V)) (pre ops : List (Op V)) (c : Callee)
    (mi : MethodInfo V) (h : Apart S c mi (Sys.run env pre (Sys.init sts)).2)
    (hsep : Separate S env c mi ops (Sys.run env pre (Sys.init sts)).2) :
    let s := (Sys.run env pre (Sys.init sts)).2
    seenAt c mi.generic ops (Sys.run env ops s).1 =
      (MState.run env.nightly env.dbg (mi.fn c.key) (ops.filterMap (Op.at c mi.generic)) ⟨s.target c, s.world⟩).1 :=
  project env c mi ops _ (sorted_run env sts pre) h hsep _ _ (AllSim.refl _ _) (Agree.refl _ _)

/-- **C28**, with and without the others: two continuations with the same operations on `c` show the same there. -/
theorem C28_same {S : Nat → Prop} (env : Env V) (sts : List (MethodInfo V)) (pre ops ops' : List (Op V)) (c : Callee)
    (mi : MethodInfo V) (h : Apart S c mi (Sys.run env pre (Sys.init sts)).2)
    (hsep : Separate S env c mi ops (Sys.run env pre (Sys.init sts)).2)
    (hsep' : Separate S env c mi ops' (Sys.run env pre (Sys.init sts)).2)
    (heq : ops.filterMap (Op.at c mi.generic) = ops'.filterMap (Op.at c mi.generic)) :
    let s := (Sys.run env pre (Sys.init sts)).2
    seenAt c mi.generic ops (Sys.run env ops s).1 = seenAt c mi.generic ops' (Sys.run env ops' s).1 := by
  intro s
  rw [C28_projection env sts pre ops c mi h hsep, C28_projection env sts pre ops' c mi h hsep', heq]

theorem seenAt_all {c : Callee} {g : Bool} {ops : List (Op V)} (h : ∀ op ∈ ops, (op.at c g).isSome) :
    ∀ obs : List (Obs V), obs.length = ops.length → seenAt c g ops obs = obs.filterMap Obs.at := by
  induction ops with
  | nil => intro obs ho; simp at ho; subst ho; rfl
  | cons op ops ih =>
    intro obs ho
    cases obs with
    | nil => simp at ho
    | cons ob obs =>
      obtain ⟨mop, hm⟩ := Option.isSome_iff_exists.mp (h op (by simp))
      simp only [seenAt, hm, List.filterMap_cons]
      rw [ih (fun o h' => h o (by simp [h'])) obs (by simpa using ho)]
      cases ob <;> rfl

theorem run_length (env : Env V) (ops : List (Op V)) (s : Sys V) : (Sys.run env ops s).1.length = ops.length := by
  induction ops generalizing s with
  | nil => rfl
  | cons op ops ih => simp [Sys.run, ih]

theorem filterMap_filter_some {α β : Type} (f : α → Option β) (l : List α) :
    (l.filter fun x => (f x).isSome).filterMap f = l.filterMap f := by
  induction l with
  | nil => rfl
  | cons x l ih =>
    rcases hf : f x with _ | y
    · simp [hf, ih]
    · simp [hf, ih]

/-- **C28** for instance methods: what is seen of the operations on one instantiation is the same if all operations on
anything else are deleted from the program. -/
theorem C28_alone {S : Nat → Prop} (env : Env V) (sts : List (MethodInfo V)) (pre ops : List (Op V)) (o m : Nat) (k : Key)
    (mi : MethodInfo V) (h : Apart S (.inst o m k) mi (Sys.run env pre (Sys.init sts)).2)
    (hsep : Separate S env (.inst o m k) mi ops (Sys.run env pre (Sys.init sts)).2) :
    let s := (Sys.run env pre (Sys.init sts)).2
    let mine := ops.filter fun op => (op.at (.inst o m k) mi.generic).isSome
    seenAt (.inst o m k) mi.generic ops (Sys.run env ops s).1 = (Sys.run env mine s).1.filterMap Obs.at := by
  intro s mine
  rw [← seenAt_all (c := .inst o m k) (g := mi.generic) (ops := mine) (fun op hop => (List.mem_filter.mp hop).2) _
    (run_length env mine s)]
  refine C28_same env sts pre ops mine _ mi h hsep ?_ (filterMap_filter_some _ _).symm
  exact ⟨fun op hop => hsep.keep op (List.mem_filter.mp hop).1, fun op hop => hsep.mine op (List.mem_filter.mp hop).1,
    fun op hop => hsep.others op (List.mem_filter.mp hop).1, fun _ _ _ => trivial⟩

/-! ## C30: static functions -/

theorem init_target (sts : List (MethodInfo V)) (c : Callee) : (Sys.init sts).target c = [] := by
  cases c with
  | inst o m k => simp [Sys.target, Sys.init]
  | stat f k =>
    simp only [Sys.target, Sys.init, List.getElem?_map]
    rcases sts[f]? with _ | mi
    · rfl
    · simp [StaticFn.new, Store.new_target]

theorem Apart.init {S : Nat → Prop} {sts : List (MethodInfo V)} {f : Nat} {k : Key} {mi : MethodInfo V}
    (hf : sts[f]? = some mi) : Apart S (.stat f k) mi (Sys.init sts) :=
  ⟨by simp [Sys.infoOf, Sys.init, hf, StaticFn.new], by rw [init_target]; simp, by intro c' _; rw [init_target]; simp⟩

/-- **C30**: in any program during which the lock of static function `f` is never poisoned (see C32) and no context of it
is checkpointed or dropped (see C31, C33), the calls of an instantiation of `f` are answered from
one list: the expectations set on that instantiation through any `Context` of `f`, in the order of creation.
Nothing else in the program matters.  (A `Context` carries no data, F:1566-1572, so `Op.sexpect`
does not say through which one an expectation is set.) -/
theorem C30_static {S : Nat → Prop} (env : Env V) (sts : List (MethodInfo V)) (ops : List (Op V)) (f : Nat) (k : Key)
    (mi : MethodInfo V) (hf : sts[f]? = some mi) (hsep : Separate S env (.stat f k) mi ops (Sys.init sts)) :
    seenAt (.stat f k) mi.generic ops (Sys.run env ops (Sys.init sts)).1 =
      (MState.run env.nightly env.dbg (mi.fn k) (ops.filterMap (Op.at (.stat f k) mi.generic))
        (MState.init (Sys.init sts).world)).1 := by
  have := C28_projection (S := S) env sts [] ops (.stat f k) mi (Apart.init hf) hsep
  simp only [Sys.run, init_target] at this
  exact this

/-! ## The hypotheses are met -/

section Examples

/-- A generic instance method, used with type arguments 1 and 2, both in sequences, but different ones. -/
def twoInst : List (Op Nat) :=
  [.expect 0 0 1 [.once, .inSequence 3, .returnConst 10], .expect 0 0 2 [.once, .inSequence 4, .returnConst 20],
   .expect 0 0 1 [.once, .inSequence 3, .returnConst 11], .call 0 0 2 0 [] id, .call 0 0 1 0 [] id, .call 0 0 2 0 [] id,
   .call 0 0 1 0 [] id, .call 0 0 1 0 [] id]

def genInfo : MethodInfo Nat := ⟨true, ⟨.static, "f", "M::f", none⟩, fun _ => none⟩

example : Apart (fun i => i = 3) (.inst 0 0 1) genInfo (Sys.run (envOf false) [.new [genInfo]] (Sys.init [])).2 := by
  refine ⟨rfl, ?_, ?_⟩
  · intro e he
    have : (Sys.run (envOf false) [.new [genInfo]] (Sys.init [])).2.target (.inst 0 0 1) = [] := rfl
    rw [this] at he; simp at he
  · intro c' _ e he
    have := target_all _ _ e he
    have h0 : (Sys.run (envOf false) [.new [genInfo]] (Sys.init [])).2.all = [] := rfl
    rw [h0] at this; simp at this

example : Separate (fun i => i = 3) (envOf false) (.inst 0 0 1) genInfo twoInst
    (Sys.run (envOf false) [.new [genInfo]] (Sys.init [])).2 := by
  refine ⟨?_, ?_, ?_, fun _ _ _ => trivial⟩
  · simp [twoInst, Op.clears]
  · simp [twoInst, Op.at, sameKey, genInfo, Build.In]
  · simp [twoInst, Op.at, sameKey, genInfo, Build.In, Op.builds?]

example : seenAt (.inst 0 0 1) true twoInst
      (Sys.run (envOf false) twoInst (Sys.run (envOf false) [.new [genInfo]] (Sys.init [])).2).1 =
    [.expected (.ok ()), .expected (.ok ()), .returned (.ok 10), .returned (.ok 11),
      .returned (.error (.noMatch "M::f()"))] := by rfl

/-- For static functions the lock is shared by all instantiations: a panic while calling one makes calls of all others
fail.  This is why `Separate.locks` is needed. -/
example : (Sys.run (envOf false) [.sexpect 0 1 [.returning { run := fun _ _ => .error (.user "boom"), tag := 0 }],
      .sexpect 0 2 [.returnConst 20], .scall 0 2 0 [], .scall 0 1 0 [], .scall 0 2 0 []] (Sys.init [genInfo])).1 =
    [.unit (.ok ()) false, .unit (.ok ()) false, .value (.ok 20), .value (.error (.user "boom")),
      .value (.error .poisoned)] := by rfl

/-- A static function and its neighbour: C30's hypotheses. -/
example : Separate (fun _ => False) (envOf false) (.stat 1 5) genInfo
    [.sexpect 1 5 [.once, .returnConst 1], .sexpect 0 5 [.returnConst 2], .scall 0 5 0 [], .scall 1 5 0 [], .sdrop 0 true,
      .sexpect 1 5 [.returnConst 3], .scall 1 5 0 [7]] (Sys.init [genInfo, genInfo]) := by
  refine ⟨?_, ?_, ?_, ?_⟩
  · simp [Op.clears]
  · simp [Op.at, sameKey, genInfo, Build.In]
  · simp [Op.at, sameKey, genInfo, Build.In, Op.builds?]
  · intro a b hab
    have : a = List.take a.length (a ++ b) := by simp
    rw [← hab] at this
    have hlen : a.length ≤ 7 := by have := congrArg List.length hab; simp at this; omega
    generalize a.length = n at *
    subst this
    have hn : n = 0 ∨ n = 1 ∨ n = 2 ∨ n = 3 ∨ n = 4 ∨ n = 5 ∨ n = 6 ∨ n = 7 := by omega
    rcases hn with rfl | rfl | rfl | rfl | rfl | rfl | rfl | rfl <;>
    · intro sf hsf
      injection hsf with hsf
      rw [← hsf]
      rfl

end Examples

end Mockall
