import Verif.Lemmas.Target

/-! # Helper lemmas: how the return function of an expectation evolves -/

set_option linter.unusedSimpArgs false

namespace Mockall

open Spec

variable {V : Type}

/-- The calls that expectation `g` has answered: they got through its count and sequence checks. -/
def served (g : Nat) (log : List (Hit V)) : List (Hit V) := log.filter fun h => h.gid == g && h.passed

/-- The return function after one answered call. -/
def Ret.next (nightly : Bool) (d : Option V) (r : Ret V) (h : Hit V) : Ret V :=
  match r with
  | .ref r => .ref r
  | .refMut r =>
    match (r.callMut nightly h.tid h.args).out with
    | .ok (.ok v) => .refMut ((r.callMut nightly h.tid h.args).next.write (h.upd v))
    | _ => .refMut (r.callMut nightly h.tid h.args).next
  | .static r true => .static r true
  | .static r false =>
    match (r.callMut nightly d h.tid h.args).out with
    | .ok (.ok _) => .static (r.callMut nightly d h.tid h.args).next false
    | _ => .static (r.callMut nightly d h.tid h.args).next true

/-- The outcome of an answered call. -/
def Ret.reply (nightly : Bool) (d : Option V) (fail : RetErr → Panic) (tid : Nat) (args : List V)
    (r : Ret V) : Except Panic V :=
  let fin : Except Panic (Except RetErr V) → Except Panic V
    | .ok (.ok v) => .ok v
    | .ok (.error m) => .error (fail m)
    | .error p => .error p
  match r with
  | .ref r => fin (.ok (r.call nightly))
  | .refMut r => fin (r.callMut nightly tid args).out
  | .static _ true => .error .poisoned
  | .static r false => fin (r.callMut nightly d tid args).out

/-- The closure entered by an answered call. -/
def Ret.ran (nightly : Bool) (d : Option V) (tid : Nat) (args : List V) (r : Ret V) : Option Nat :=
  match r with
  | .ref _ => none
  | .refMut r => (r.callMut nightly tid args).ran
  | .static _ true => none
  | .static r false => (r.callMut nightly d tid args).ran

theorem Expectation.ret_call_eq (cx : Cx V) (info : FnInfo V) (args : List V) (e : Expectation V)
    (w : World V) (hp : e.common.mpoison = false) (g : Nat) :
    e.ret_call cx info args w =
      (e.ret.reply cx.nightly info.default (.ret info.funcname e.common.matcher.display) cx.tid args,
        { e with ret := e.ret.next cx.nightly info.default ⟨g, cx.tid, args, true, cx.upd⟩ },
        { w with runs := w.runs ++ runEntry cx args (e.ret.ran cx.nightly info.default cx.tid args) }) := by
  obtain ⟨gid, inf, chain, common, ret⟩ := e
  simp only at hp
  unfold Expectation.ret_call
  simp only [hp, Bool.false_eq_true, ↓reduceIte]
  rcases ret with r | r | ⟨r, _ | _⟩
  · simp only [Ret.reply, Ret.next, Ret.ran, runEntry, List.append_nil]
    cases r.call cx.nightly <;> rfl
  · simp only [Ret.reply, Ret.next, Ret.ran]
    rcases (r.callMut cx.nightly cx.tid args).out with p | m | v <;> rfl
  · simp only [Ret.reply, Ret.next, Ret.ran, Bool.false_eq_true, ↓reduceIte]
    rcases (r.callMut cx.nightly info.default cx.tid args).out with p | m | v <;> rfl
  · simp only [Ret.reply, Ret.next, Ret.ran, runEntry, List.append_nil, ↓reduceIte]

/-- Whether the default of the return type can matter. -/
def Ret.needsDefault (nightly : Bool) : Ret V → Bool
  | .static .dflt _ => nightly
  | _ => false

theorem Ret.next_indep {nightly : Bool} {r : Ret V} (h : r.needsDefault nightly = false) (d d' : Option V)
    (x : Hit V) : r.next nightly d x = r.next nightly d' x := by
  rcases r with r | r | ⟨r, _ | _⟩
  · rfl
  · rfl
  · cases r <;> simp_all [Ret.next, Ret.needsDefault, StaticRfunc.callMut, returnDefault]
  · rfl

theorem Ret.next_needs {nightly : Bool} {r : Ret V} (h : r.needsDefault nightly = false) (d : Option V)
    (x : Hit V) : (r.next nightly d x).needsDefault nightly = false := by
  rcases r with r | r | ⟨r, _ | _⟩
  · rfl
  · simp only [Ret.next]; split <;> rfl
  · cases nightly with
    | false => simp only [Ret.next]; split <;> simp [Ret.needsDefault] <;> split <;> rfl
    | true =>
      cases r <;> simp [Ret.needsDefault] at h <;>
        simp only [Ret.next, StaticRfunc.callMut, Closure.call] <;> (repeat' split) <;>
        simp_all [Ret.needsDefault] <;> grind
  · exact h

theorem Ret.next_kind (nightly : Bool) (d : Option V) (r : Ret V) (x : Hit V) :
    (r.next nightly d x).kind = r.kind := by
  rcases r with r | r | ⟨r, _ | _⟩ <;> simp only [Ret.next] <;> (repeat' split) <;> rfl

/-- The return function in force is the last one set, advanced by the answered calls. -/
def RetInv (nightly : Bool) (w : World V) (e : Expectation V) : Prop :=
  e.ret.kind = e.info.kind ∧
    ((lastOf (retOf e.info.kind) (retDefault nightly e.info) e.chain).needsDefault nightly = false →
      e.ret.needsDefault nightly = false ∧
      ∀ d, e.ret = (served e.gid w.log).foldl (Ret.next nightly d)
        (lastOf (retOf e.info.kind) (retDefault nightly e.info) e.chain))

theorem served_append (g : Nat) (log : List (Hit V)) (h : Hit V) :
    served g (log ++ [h]) = served g log ++ (if h.gid = g ∧ h.passed = true then [h] else []) := by
  unfold served
  rw [List.filter_append]
  congr 1
  by_cases h1 : h.gid = g <;> by_cases h2 : h.passed = true <;> simp [h1, h2]

theorem served_fresh {g : Nat} {log : List (Hit V)} (h : ∀ x ∈ log, x.gid < g) : served g log = [] := by
  unfold served
  rw [List.filter_eq_nil_iff]
  intro x hx
  have := h x hx
  simp; omega

theorem Expectation.matches_mpoison {tid : Nat} {args : List V} {e e' : Expectation V} {b : Bool}
    (h : e.matches tid args = (.ok b, e')) : e.common.mpoison = false := by
  unfold Expectation.matches Common.matches at h
  simp only at h
  split at h
  · simp at h
  · rename_i hp; simpa using hp

/-- The return function, log and runs after a call of a matching expectation. -/
theorem Expectation.call_ret {cx : Cx V} {info : FnInfo V} {args : List V} {e : Expectation V}
    {w : World V} (hm : e.common.mpoison = false) :
    let o := e.call cx info args w
    (∃ p, o.1 = .error p ∧ o.2.1.ret = e.ret ∧ o.2.2.runs = w.runs ∧
      o.2.2.log = w.log ++ [⟨e.gid, cx.tid, args, false, cx.upd⟩]) ∨
    (o.1 = e.ret.reply cx.nightly info.default (.ret info.funcname e.common.matcher.display) cx.tid args ∧
      o.2.1.ret = e.ret.next cx.nightly info.default ⟨e.gid, cx.tid, args, true, cx.upd⟩ ∧
      o.2.2.runs = w.runs ++ runEntry cx args (e.ret.ran cx.nightly info.default cx.tid args) ∧
      o.2.2.log = w.log ++ [⟨e.gid, cx.tid, args, true, cx.upd⟩]) := by
  intro o
  have hce := Common.call_eq info.funcname (callDesc cx info args) e.common w.seqs
  rcases Expectation.call_cases cx info args e w with ⟨p, _, h⟩ | ⟨_, h⟩
  · refine .inl ⟨p, ?_⟩
    simp only [o, h]
    exact ⟨trivial, trivial, trivial, trivial⟩
  · refine .inr ?_
    rw [hce, Expectation.ret_call_eq cx info args _ _ (by exact hm) e.gid] at h
    simp only [o, h]
    exact ⟨trivial, trivial, trivial, trivial⟩

theorem retInv_step {env : Env V} {done : List (Op V)} {l l' : List (Expectation V)} {w w' : World V}
    {op : Op V} {ob : Obs V} (hi : SysInv env.nightly done l w) (hR : ∀ e ∈ l, RetInv env.nightly w e)
    (h : Evo env l w op ob l' w') : ∀ e ∈ l', RetInv env.nightly w' e := by
  cases h with
  | quiet hs _ => exact fun e he => hR e (hs.subset he)
  | @expect bs info ob l' r hb hr hr' hins =>
    obtain ⟨l1, l2, rfl, rfl⟩ := hins
    have hcfg : Cfg env.nightly info (newExp env.nightly info bs w) :=
      (Cfg.new env.nightly info w.fresh).builds w.seqs bs
    have hg : (newExp env.nightly info bs w).gid = w.fresh :=
      (Expectation.builds_frame bs (Expectation.new env.nightly info w.fresh) w.seqs).1
    intro e he
    have hcase : e ∈ l1 ++ l2 ∨ e = newExp env.nightly info bs w := by
      simp at he ⊢; grind
    rcases hcase with he | rfl
    · exact hR e he
    · refine ⟨by rw [hcfg.info]; exact hcfg.kind, fun hn => ?_⟩
      rw [hcfg.info, ← hcfg.ret] at hn ⊢
      refine ⟨hn, fun d => ?_⟩
      rw [hg, served_fresh hi.log]
      rfl
  | @pred tid args upd e e' p ob l' hc hch hm ho =>
    obtain ⟨l1, l2, rfl, rfl⟩ := hch
    have he' := Expectation.matches_err hm
    intro x hx
    have hcase : x ∈ l1 ++ e :: l2 ∨ x = e' := by simp at hx ⊢; grind
    rcases hcase with hx | rfl
    · exact hR x hx
    · rw [he']; exact hR e (by simp)
  | @hit tid args upd e ob l' info hc hm hch ho =>
    obtain ⟨l1, l2, rfl, rfl⟩ := hch
    have hmp := Expectation.matches_mpoison hm
    have hcr := Expectation.call_ret (cx := ⟨env.nightly, tid, env.dbg, upd⟩) (info := info) (args := args)
      (w := w) hmp
    have hF := Expectation.call_frame ⟨env.nightly, tid, env.dbg, upd⟩ info args e w
    generalize e.call ⟨env.nightly, tid, env.dbg, upd⟩ info args w = o at *
    simp only at hF hcr
    have hgid : o.2.1.gid = e.gid := by rw [hF]
    have hchain : o.2.1.chain = e.chain := by rw [hF]
    have hinf : o.2.1.info = e.info := by rw [hF]
    have h2 := hi.nodup
    have hgl : ∀ x ∈ l1 ++ l2, x.gid ≠ e.gid := by
      have hp : ((l1 ++ e :: l2).map (·.gid)).Perm (e.gid :: (l1 ++ l2).map (·.gid)) :=
        (List.perm_middle).map _
      rw [hp.nodup_iff] at h2
      intro x hx hxe
      exact (List.nodup_cons.mp h2).1 (List.mem_map.mpr ⟨x, hx, hxe⟩)
    intro x hx
    have hcase : x ∈ l1 ++ l2 ∨ x = o.2.1 := by simp at hx ⊢; grind
    rcases hcase with hx | rfl
    · obtain ⟨hk, hrest⟩ := hR x (by simp at hx ⊢; grind)
      refine ⟨hk, fun hn => ?_⟩
      obtain ⟨h1, h3⟩ := hrest hn
      refine ⟨h1, fun d => ?_⟩
      have hne : e.gid ≠ x.gid := fun h => hgl x hx h.symm
      have : served x.gid o.2.2.log = served x.gid w.log := by
        rcases hcr with ⟨_, _, _, _, hl⟩ | ⟨_, _, _, hl⟩ <;> rw [hl, served_append] <;> simp [hne]
      rw [this]
      exact h3 d
    · obtain ⟨hk, hrest⟩ := hR e (by simp)
      rcases hcr with ⟨_, _, hret, _, hl⟩ | ⟨_, hret, _, hl⟩
      · refine ⟨by rw [hret, hinf]; exact hk, ?_⟩
        rw [hinf, hret, hchain, hgid, hl, served_append]
        simpa using hrest
      · refine ⟨by rw [hret, hinf, Ret.next_kind]; exact hk, fun hn => ?_⟩
        rw [hinf, hchain] at hn ⊢
        obtain ⟨h1, h3⟩ := hrest hn
        refine ⟨by rw [hret]; exact Ret.next_needs h1 _ _, fun d => ?_⟩
        rw [hret, hgid, hl, served_append, Ret.next_indep h1 info.default d]
        simp [List.foldl_append, ← h3 d]

theorem retInv_run (env : Env V) (sts : List (MethodInfo V)) (ops : List (Op V)) :
    ∀ e ∈ (Sys.run env ops (Sys.init sts)).2.all,
      RetInv env.nightly (Sys.run env ops (Sys.init sts)).2.world e := by
  have := run_induct (env := env)
    (fun done l w => SysInv env.nightly done l w ∧ ∀ e ∈ l, RetInv env.nightly w e)
    (fun _ _ _ _ _ _ _ h hE => ⟨h.1.step hE, retInv_step h.1 h.2 hE⟩) ops (Sys.init sts) []
    ⟨⟨by simp [Sys.init_all], by simp [Sys.init_all], by simp [Sys.init]⟩, by simp [Sys.init_all]⟩
  exact this.2

/-- A call step that is added to the log as answered by `e` was a call of `e`. -/
theorem step_answer (env : Env V) (sts : List (MethodInfo V)) (ops : List (Op V)) (c : Callee)
    (mi : MethodInfo V) (tid : Nat) (args : List V) (u : V → V) (e : Expectation V) (passed : Bool) :
    let s := (Sys.run env ops (Sys.init sts)).2
    let t := s.step env (c.op tid args u)
    let cx : Cx V := ⟨env.nightly, tid, env.dbg, c.upd u⟩
    s.usable c mi → e ∈ s.target c →
    t.2.world.log = s.world.log ++ [⟨e.gid, tid, args, passed, c.upd u⟩] →
    e.matches tid args = (.ok true, e) ∧
    t.1 = .value (e.call cx (mi.fn c.key) args s.world).1 ∧
    t.2.world = (e.call cx (mi.fn c.key) args s.world).2.2 := by
  intro s t cx hu he hl
  obtain ⟨h1, h2, _, _⟩ := step_call env s c mi hu tid args u
  have hS := target_sorted env sts ops c
  have hevo := callScan_evo cx (mi.fn c.key) args (s.target c).length (s.target c) s.world
  change _ = Obs.value (expectMatch cx (mi.fn c.key) args (callScan cx (mi.fn c.key) args (s.target c).length (s.target c) s.world).1) at h1
  change _ = (callScan cx (mi.fn c.key) args (s.target c).length (s.target c) s.world).2.2 at h2
  change (s.step env (c.op tid args u)).2.world.log = _ at hl
  show _ ∧ (s.step env (c.op tid args u)).1 = _ ∧ (s.step env (c.op tid args u)).2.world = _
  rw [h2] at hl
  rw [h1, h2]
  have hno : ∀ x : Hit V, s.world.log ≠ s.world.log ++ [x] := by intro x hx; simp at hx
  generalize callScan cx (mi.fn c.key) args (s.target c).length (s.target c) s.world = o at *
  generalize o.1 = r at *
  generalize o.2.1 = l' at *
  generalize o.2.2 = w' at *
  cases hevo with
  | none => exact absurd hl (hno _)
  | early => exact absurd hl (hno _)
  | pred => exact absurd hl (hno _)
  | @hit e' l' r hch hm hr =>
    obtain ⟨l1, l2, hl1, _⟩ := hch
    obtain ⟨b, hb, hW⟩ := Expectation.call_world cx (mi.fn c.key) args e' s.world
    rw [hW] at hl
    simp only [List.append_cancel_left_eq, List.cons.injEq, Hit.mk.injEq, and_true] at hl
    have hee : e' = e := by
      have hmem : e' ∈ s.target c := by rw [hl1]; simp
      obtain ⟨i, hi, hei⟩ := List.getElem_of_mem hmem
      obtain ⟨j, hj, hej⟩ := List.getElem_of_mem he
      rw [List.pairwise_map, List.pairwise_iff_getElem] at hS
      rcases Nat.lt_trichotomy i j with hij | hij | hij
      · have : ((s.target c)[i]).gid < ((s.target c)[j]).gid := hS i j hi hj hij
        rw [hei, hej, hl.1] at this
        omega
      · subst hij; rw [← hei, ← hej]
      · have : ((s.target c)[j]).gid < ((s.target c)[i]).gid := hS j i hj hi hij
        rw [hei, hej, hl.1] at this
        omega
    subst hee
    refine ⟨hm, ?_, rfl⟩
    subst hr
    congr 1
    cases (e'.call cx (mi.fn c.key) args s.world).1 <;> rfl

/-- The return setter in force: the last builder call of the chain that sets a return value on this kind
of expectation. -/
def returnSetter (kind : RetKind) (chain : List (Build V)) : Option (Build V) :=
  (chain.filter fun b => (retOf kind b).isSome).getLast?

theorem snoc_induct {α : Type} {P : List α → Prop} (nil : P []) (snoc : ∀ l a, P l → P (l ++ [a])) (l : List α) :
    P l := by
  have : ∀ l : List α, P l.reverse := by
    intro l
    induction l with
    | nil => exact nil
    | cons a l ih => rw [List.reverse_cons]; exact snoc _ _ ih
  simpa using this l.reverse

theorem lastOf_setter (kind : RetKind) (d : Ret V) (chain : List (Build V)) :
    lastOf (retOf kind) d chain =
      match returnSetter kind chain with
      | some b => (retOf kind b).getD d
      | none => d := by
  unfold lastOf returnSetter
  induction chain using snoc_induct with
  | nil => rfl
  | snoc l b ih =>
    rw [List.filterMap_append, List.filter_append]
    cases hb : retOf kind b with
    | none => simpa [hb] using ih
    | some r => simp [hb]

theorem returnSetter_mem {kind : RetKind} {chain : List (Build V)} {b : Build V}
    (h : returnSetter kind chain = some b) : b ∈ chain ∧ (retOf kind b).isSome := by
  have := List.mem_of_getLast? h
  simpa using this

/-- The builder calls of a program so far. -/
def buildsOf (ops : List (Op V)) : List (Build V) := ops.flatMap fun op => op.builds?.getD []

theorem chain_step {env : Env V} {done : List (Op V)} {l l' : List (Expectation V)} {w w' : World V}
    {op : Op V} {ob : Obs V} (ih : ∀ e ∈ l, ∀ b ∈ e.chain, b ∈ buildsOf done)
    (hE : Evo env l w op ob l' w') : ∀ e ∈ l', ∀ b ∈ e.chain, b ∈ buildsOf (done ++ [op]) := by
  have hmono : ∀ e ∈ l, ∀ b ∈ e.chain, b ∈ buildsOf (done ++ [op]) := by
    intro e he b hb
    simp only [buildsOf, List.flatMap_append, List.mem_append]
    exact .inl (ih e he b hb)
  cases hE with
  | quiet hs _ => exact fun e he => hmono e (hs.subset he)
  | @expect bs info ob l' r hb hr hr' hins =>
    obtain ⟨l1, l2, rfl, rfl⟩ := hins
    intro e he
    have hcase : e ∈ l1 ++ l2 ∨ e = newExp env.nightly info bs w := by
      simp at he ⊢; grind
    rcases hcase with he | rfl
    · exact hmono e he
    · intro b hbm
      obtain ⟨pre, h1, h2⟩ := Expectation.builds_prefix bs (Expectation.new env.nightly info w.fresh) w.seqs
      unfold newExp at hbm
      rw [h2] at hbm
      simp only [Expectation.new, List.nil_append] at hbm
      simp only [buildsOf, List.flatMap_append, List.mem_append]
      refine .inr ?_
      simp only [List.flatMap_cons, hb, Option.getD_some, List.flatMap_nil, List.append_nil]
      exact h1.subset hbm
  | @pred tid args upd e e' p ob l' hc hch hm ho =>
    obtain ⟨l1, l2, rfl, rfl⟩ := hch
    have he' := Expectation.matches_err hm
    intro x hx
    have hcase : x ∈ l1 ++ e :: l2 ∨ x = e' := by simp at hx ⊢; grind
    rcases hcase with hx | rfl
    · exact hmono x hx
    · rw [he']; exact hmono e (by simp)
  | @hit tid args upd e ob l' info hc hm hch ho =>
    obtain ⟨l1, l2, rfl, rfl⟩ := hch
    have hF := Expectation.call_frame ⟨env.nightly, tid, env.dbg, upd⟩ info args e w
    intro x hx
    have hcase : x ∈ l1 ++ e :: l2 ∨ x = (e.call ⟨env.nightly, tid, env.dbg, upd⟩ info args w).2.1 := by
      simp at hx ⊢; grind
    rcases hcase with hx | rfl
    · exact hmono x hx
    · rw [hF]; exact hmono e (by simp)

/-- Every builder call in the chain of a live expectation was made by the program. -/
theorem chain_run (env : Env V) (sts : List (MethodInfo V)) (ops : List (Op V)) :
    ∀ e ∈ (Sys.run env ops (Sys.init sts)).2.all, ∀ b ∈ e.chain, b ∈ buildsOf ops := by
  have := run_induct (env := env)
    (fun done l _ => ∀ e ∈ l, ∀ b ∈ e.chain, b ∈ buildsOf done)
    (fun _ _ _ _ _ _ _ h hE => chain_step h hE) ops (Sys.init sts) []
    (by simp [Sys.init_all])
  simpa using this

/-- A call answered by `e`, in terms of the setting in force and the calls answered before. -/
theorem answer_fold (env : Env V) (sts : List (MethodInfo V)) (ops : List (Op V)) (c : Callee)
    (mi : MethodInfo V) (tid : Nat) (args : List V) (u : V → V) (e : Expectation V) (r0 : Ret V) :
    let s := (Sys.run env ops (Sys.init sts)).2
    let t := s.step env (c.op tid args u)
    let info := mi.fn c.key
    s.usable c mi → e ∈ s.target c →
    t.2.world.log = s.world.log ++ [⟨e.gid, tid, args, true, c.upd u⟩] →
    lastOf (retOf mi.base.kind) (retDefault env.nightly (mi.fn c.key)) e.chain = r0 →
    r0.needsDefault env.nightly = false →
    let r := (served e.gid s.world.log).foldl (Ret.next env.nightly info.default) r0
    t.1 = .value (r.reply env.nightly info.default (.ret info.funcname e.common.matcher.display) tid args) ∧
    t.2.world.runs = s.world.runs ++
      runEntry ⟨env.nightly, tid, env.dbg, c.upd u⟩ args (r.ran env.nightly info.default tid args) := by
  intro s t info hu he hl hr0 hnd r
  obtain ⟨hm, h1, h2⟩ := step_answer env sts ops c mi tid args u e true hu he hl
  have hinfo := target_info env sts ops c mi hu.1 e he
  obtain ⟨_, hR⟩ := retInv_run env sts ops e (target_all _ c e he)
  rw [hinfo] at hR
  have hk : (mi.fn c.key).kind = mi.base.kind := rfl
  rw [hk, hr0] at hR
  have hr : e.ret = r := (hR hnd).2 info.default
  have hc := Expectation.call_ret (cx := ⟨env.nightly, tid, env.dbg, c.upd u⟩) (info := mi.fn c.key)
    (args := args) (w := s.world) (Expectation.matches_mpoison hm)
  change (s.step env (c.op tid args u)).2.world.log = _ at hl
  show (s.step env (c.op tid args u)).1 = _ ∧ (s.step env (c.op tid args u)).2.world.runs = _
  have h2' : (s.step env (c.op tid args u)).2.world = _ := h2
  have h1' : (s.step env (c.op tid args u)).1 = _ := h1
  rw [h2'] at hl ⊢
  rw [h1']
  rcases hc with ⟨p, _, _, _, hl'⟩ | ⟨ha, _, hb, _⟩
  · have hl2 : s.world.log ++ [_] = _ := hl'.symm.trans hl
    simp at hl2
  · refine ⟨?_, ?_⟩
    · rw [← hr]; exact congrArg Obs.value ha
    · rw [← hr]; exact hb

/-! ## The advance of each kind of return function -/

theorem fold_poison (nightly : Bool) (d : Option V) (r : StaticRfunc V) (hs : List (Hit V)) :
    hs.foldl (Ret.next nightly d) (.static r true) = .static r true := by
  induction hs with
  | nil => rfl
  | cons h hs ih => exact ih

theorem fold_mut (nightly : Bool) (d : Option V) (f : Closure V) (hs : List (Hit V))
    (hok : ∀ a x b, hs.map (·.args) = a ++ x :: b → ∃ v, f.run (f.hist ++ a) x = .ok v) :
    hs.foldl (Ret.next nightly d) (.static (.mut f) false) =
      .static (.mut { f with hist := f.hist ++ hs.map (·.args) }) false := by
  induction hs generalizing f with
  | nil => simp
  | cons h hs ih =>
    obtain ⟨v, hv⟩ := hok [] h.args (hs.map (·.args)) rfl
    rw [List.append_nil] at hv
    have := ih { f with hist := f.hist ++ [h.args] } (by
      intro a x b hab
      obtain ⟨v, hv⟩ := hok (h.args :: a) x b (by simp [hab])
      exact ⟨v, by simpa using hv⟩)
    simp only [List.foldl_cons, Ret.next, StaticRfunc.callMut, Closure.call, hv]
    rw [this]
    simp

theorem fold_mut_panicked (nightly : Bool) (d : Option V) (f : Closure V) (hs : List (Hit V))
    (hp : ∃ a x b p, hs.map (·.args) = a ++ x :: b ∧ f.run (f.hist ++ a) x = .error p) :
    ∃ r, hs.foldl (Ret.next nightly d) (.static (.mut f) false) = .static r true := by
  induction hs generalizing f with
  | nil => obtain ⟨a, x, b, p, h, _⟩ := hp; simp at h
  | cons h hs ih =>
    simp only [List.foldl_cons, Ret.next, StaticRfunc.callMut, Closure.call]
    cases hr : f.run f.hist h.args with
    | error p => exact ⟨_, fold_poison _ _ _ _⟩
    | ok v =>
      refine ih _ ?_
      obtain ⟨a, x, b, p, hab, hx⟩ := hp
      cases a with
      | nil =>
        simp at hab
        rw [List.append_nil, ← hab.1, hr] at hx
        simp at hx
      | cons y a =>
        simp at hab
        exact ⟨a, x, b, p, hab.2, by simpa [hab.1] using hx⟩

theorem fold_mutSt (nightly : Bool) (d : Option V) (t : Nat) (f : Closure V) (hs : List (Hit V))
    (ht : ∀ h ∈ hs, h.tid = t)
    (hok : ∀ a x b, hs.map (·.args) = a ++ x :: b → ∃ v, f.run (f.hist ++ a) x = .ok v) :
    hs.foldl (Ret.next nightly d) (.static (.mutSt t f) false) =
      .static (.mutSt t { f with hist := f.hist ++ hs.map (·.args) }) false := by
  induction hs generalizing f with
  | nil => simp
  | cons h hs ih =>
    obtain ⟨v, hv⟩ := hok [] h.args (hs.map (·.args)) rfl
    rw [List.append_nil] at hv
    have := ih { f with hist := f.hist ++ [h.args] } (fun x hx => ht x (List.mem_cons_of_mem _ hx)) (by
      intro a x b hab
      obtain ⟨v, hv⟩ := hok (h.args :: a) x b (by simp [hab])
      exact ⟨v, by simpa using hv⟩)
    have h0 := ht h List.mem_cons_self
    simp only [List.foldl_cons, Ret.next, StaticRfunc.callMut, Closure.call, hv, h0, ↓reduceIte]
    rw [this]
    simp

theorem fold_mutSt_foreign (nightly : Bool) (d : Option V) (t : Nat) (f : Closure V) (hs : List (Hit V))
    (ht : ∃ h ∈ hs, h.tid ≠ t) :
    ∃ r, hs.foldl (Ret.next nightly d) (.static (.mutSt t f) false) = .static r true := by
  induction hs generalizing f with
  | nil => simp at ht
  | cons h hs ih =>
    simp only [List.foldl_cons, Ret.next, StaticRfunc.callMut, Closure.call]
    by_cases h0 : h.tid = t
    · simp only [h0, ↓reduceIte]
      cases hr : f.run f.hist h.args with
      | error p => exact ⟨_, fold_poison _ _ _ _⟩
      | ok v =>
        refine ih _ ?_
        obtain ⟨x, hx, hxt⟩ := ht
        rcases List.mem_cons.mp hx with rfl | hx
        · exact absurd h0 hxt
        · exact ⟨x, hx, hxt⟩
    · simp only [h0, ↓reduceIte]
      exact ⟨_, fold_poison _ _ _ _⟩

theorem fold_refMut_mut (nightly : Bool) (d : Option V) (f : Closure V) (o : Option V) (hs : List (Hit V)) :
    ∃ o', hs.foldl (Ret.next nightly d) (.refMut (.mut f o)) =
      .refMut (.mut { f with hist := f.hist ++ hs.map (·.args) } o') := by
  induction hs generalizing f o with
  | nil => exact ⟨o, by simp⟩
  | cons h hs ih =>
    simp only [List.foldl_cons, Ret.next, RefMutRfunc.callMut, Closure.call]
    cases hr : f.run f.hist h.args with
    | error p =>
      obtain ⟨o', ho⟩ := ih { f with hist := f.hist ++ [h.args] } o
      exact ⟨o', by simp [ho]⟩
    | ok v =>
      obtain ⟨o', ho⟩ := ih { f with hist := f.hist ++ [h.args] } (some (h.upd v))
      exact ⟨o', by simp [ho, RefMutRfunc.write]⟩

theorem fold_refMut_mutSt (nightly : Bool) (d : Option V) (t : Nat) (f : Closure V) (o : Option V)
    (hs : List (Hit V)) :
    ∃ o', hs.foldl (Ret.next nightly d) (.refMut (.mutSt t f o)) =
      .refMut (.mutSt t { f with hist := f.hist ++ (hs.filter (·.tid == t)).map (·.args) } o') := by
  induction hs generalizing f o with
  | nil => exact ⟨o, by simp⟩
  | cons h hs ih =>
    simp only [List.foldl_cons, Ret.next, RefMutRfunc.callMut, Closure.call]
    by_cases h0 : h.tid = t
    · simp only [h0, ↓reduceIte]
      cases hr : f.run f.hist h.args with
      | error p =>
        obtain ⟨o', ho⟩ := ih { f with hist := f.hist ++ [h.args] } o
        exact ⟨o', by simp [ho, h0]⟩
      | ok v =>
        obtain ⟨o', ho⟩ := ih { f with hist := f.hist ++ [h.args] } (some (h.upd v))
        exact ⟨o', by simp [ho, h0, RefMutRfunc.write]⟩
    · simp only [h0, ↓reduceIte]
      obtain ⟨o', ho⟩ := ih f o
      exact ⟨o', by simp [ho, h0]⟩

theorem fold_var (nightly : Bool) (d : Option V) (v : V) (hs : List (Hit V)) :
    hs.foldl (Ret.next nightly d) (.refMut (.var v)) =
      .refMut (.var (hs.foldl (fun x h => h.upd x) v)) := by
  induction hs generalizing v with
  | nil => rfl
  | cons h hs ih => exact ih _

theorem fold_refMut_dflt (nightly : Bool) (d : Option V) (v : V) (hs : List (Hit V)) :
    hs.foldl (Ret.next nightly d) (.refMut (.dflt (some v))) =
      .refMut (.dflt (some (hs.foldl (fun x h => h.upd x) v))) := by
  induction hs generalizing v with
  | nil => rfl
  | cons h hs ih => exact ih _

theorem fold_refMut_none (nightly : Bool) (d : Option V) (hs : List (Hit V)) :
    hs.foldl (Ret.next nightly d) (.refMut (.dflt none)) = .refMut (.dflt none) := by
  induction hs with
  | nil => rfl
  | cons h hs ih => exact ih

theorem fold_ref (nightly : Bool) (d : Option V) (r : RefRfunc V) (hs : List (Hit V)) :
    hs.foldl (Ret.next nightly d) (.ref r) = .ref r := by
  induction hs with
  | nil => rfl
  | cons h hs ih => exact ih

theorem fold_expired (nightly : Bool) (d : Option V) (h : Hit V) (hs : List (Hit V)) :
    (h :: hs).foldl (Ret.next nightly d) (.static .expired false) = .static .expired true := by
  simp only [List.foldl_cons, Ret.next, StaticRfunc.callMut]
  exact fold_poison _ _ _ _

/-- After the first call a once closure is gone; the lock is poisoned unless that first call was the only
one and went well. -/
theorem fold_once (nightly : Bool) (d : Option V) (f : OnceClosure V) (h : Hit V) (hs : List (Hit V)) :
    (h :: hs).foldl (Ret.next nightly d) (.static (.once f) false) =
      .static .expired (match f.run h.args with | .ok _ => !hs.isEmpty | .error _ => true) := by
  simp only [List.foldl_cons, Ret.next, StaticRfunc.callMut]
  cases hr : f.run h.args with
  | error p => exact fold_poison _ _ _ _
  | ok v =>
    cases hs with
    | nil => rfl
    | cons h' hs => exact fold_expired _ _ _ _

theorem fold_onceSt (nightly : Bool) (d : Option V) (t : Nat) (f : OnceClosure V) (h : Hit V)
    (hs : List (Hit V)) :
    (h :: hs).foldl (Ret.next nightly d) (.static (.onceSt t f) false) =
      .static .expired (if h.tid = t then
        (match f.run h.args with | .ok _ => !hs.isEmpty | .error _ => true) else true) := by
  simp only [List.foldl_cons, Ret.next, StaticRfunc.callMut]
  by_cases h0 : h.tid = t
  · simp only [h0, ↓reduceIte]
    cases hr : f.run h.args with
    | error p => exact fold_poison _ _ _ _
    | ok v =>
      cases hs with
      | nil => rfl
      | cons h' hs => exact fold_expired _ _ _ _
  · simp only [h0, ↓reduceIte]
    exact fold_poison _ _ _ _

theorem fold_dflt_stable (d : Option V) (h : Hit V) (hs : List (Hit V)) :
    (h :: hs).foldl (Ret.next false d) (.static .dflt false) = .static .dflt true := by
  simp only [List.foldl_cons, Ret.next, StaticRfunc.callMut, returnDefault]
  exact fold_poison _ _ _ _

end Mockall
