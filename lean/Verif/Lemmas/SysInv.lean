import Verif.Lemmas.Builders

/-! # Helper lemmas: invariants of all reachable program states -/

set_option linter.unusedSimpArgs false

namespace Mockall

open Spec

variable {V : Type}

/-- `g` is `f` after some more runs. -/
def Closure.later (f g : Closure V) : Prop := g.run = f.run ∧ g.tag = f.tag

def RefMutRfunc.later : RefMutRfunc V → RefMutRfunc V → Prop
  | .dflt (some _), .dflt (some _) => True
  | .dflt none, .dflt none => True
  | .mut f _, .mut g _ => f.later g
  | .mutSt t f _, .mutSt u g _ => t = u ∧ f.later g
  | .var _, .var _ => True
  | _, _ => False

def StaticRfunc.later : StaticRfunc V → StaticRfunc V → Prop
  | .dflt, .dflt => True
  | .mut f, .mut g => f.later g
  | .mutSt t f, .mutSt u g => t = u ∧ f.later g
  | .once f, .once g => f = g
  | .once _, .expired => True
  | .onceSt t f, .onceSt u g => t = u ∧ f = g
  | .onceSt _ _, .expired => True
  | .expired, .expired => True
  | _, _ => False

/-- `r'` can be `r` after some calls. -/
def Ret.later : Ret V → Ret V → Prop
  | .ref a, .ref b => a = b
  | .refMut a, .refMut b => a.later b
  | .static a _, .static b _ => a.later b
  | _, _ => False

theorem Ret.later_refl (r : Ret V) : r.later r := by
  rcases r with r | r | ⟨r, p⟩
  · rfl
  · rcases r with (_ | _) | _ | _ | _ <;> simp [Ret.later, RefMutRfunc.later, Closure.later]
  · rcases r with _ | _ | _ | _ | _ | _ <;> simp [Ret.later, StaticRfunc.later, Closure.later]

theorem Ret.later_trans {a b c : Ret V} (h : a.later b) (h' : b.later c) : a.later c := by
  rcases a with a | a | ⟨a, p⟩ <;> rcases b with b | b | ⟨b, p'⟩ <;> simp [Ret.later] at h <;>
    rcases c with c | c | ⟨c, p''⟩ <;> simp [Ret.later] at h' ⊢
  · rw [h, h']
  · rcases a with (_ | _) | _ | _ | _ <;> rcases b with (_ | _) | _ | _ | _ <;>
      simp [RefMutRfunc.later] at h <;> rcases c with (_ | _) | _ | _ | _ <;>
      simp_all [RefMutRfunc.later, Closure.later]
  · rcases a with _ | _ | _ | _ | _ | _ <;> rcases b with _ | _ | _ | _ | _ | _ <;>
      simp [StaticRfunc.later] at h <;> rcases c with _ | _ | _ | _ | _ | _ <;>
      simp_all [StaticRfunc.later, Closure.later]

theorem RefMutRfunc.write_later (r : RefMutRfunc V) (v : V) : r.later (r.write v) := by
  rcases r with (_ | _) | ⟨_, _ | _⟩ | ⟨_, _, _ | _⟩ | _ <;>
    simp [RefMutRfunc.write, RefMutRfunc.later, Closure.later]

theorem RefMutRfunc.callMut_later (nightly : Bool) (tid : Nat) (args : List V) (r : RefMutRfunc V) :
    r.later (r.callMut nightly tid args).next := by
  rcases r with (_ | _) | ⟨f, _ | _⟩ | ⟨t, f, _ | _⟩ | _ <;>
    simp only [RefMutRfunc.callMut, Closure.call] <;>
    (repeat' split) <;> simp_all [RefMutRfunc.later, Closure.later] <;> grind

theorem StaticRfunc.callMut_later (nightly : Bool) (d : Option V) (tid : Nat) (args : List V)
    (r : StaticRfunc V) : r.later (r.callMut nightly d tid args).next := by
  rcases r with _ | _ | f | ⟨t, f⟩ | f | ⟨t, f⟩ <;>
    simp only [StaticRfunc.callMut, Closure.call] <;>
    (repeat' split) <;> simp_all [StaticRfunc.later, Closure.later] <;> grind

theorem Expectation.ret_call_later (cx : Cx V) (info : FnInfo V) (args : List V) (e : Expectation V)
    (w : World V) : e.ret.later (e.ret_call cx info args w).2.1.ret := by
  have h0 := e.ret.later_refl
  unfold Expectation.ret_call
  simp only
  split
  · split <;> exact h0
  · rename_i r hr
    have hl := RefMutRfunc.callMut_later cx.nightly cx.tid args r
    split
    · exact h0
    · split
      · rw [hr]
        exact Ret.later_trans (b := .refMut _) hl (RefMutRfunc.write_later _ _)
      · rw [hr]; exact hl
      · rw [hr]; exact hl
  · rename_i r p hr
    have hl := StaticRfunc.callMut_later cx.nightly info.default cx.tid args r
    split
    · exact h0
    · split <;> rw [hr] <;> exact hl

theorem Expectation.call_later (cx : Cx V) (info : FnInfo V) (args : List V) (e : Expectation V)
    (w : World V) : e.ret.later (e.call cx info args w).2.1.ret := by
  rcases Expectation.call_cases cx info args e w with ⟨p, _, h⟩ | ⟨_, h⟩
  · rw [h]; exact e.ret.later_refl
  · rw [h]
    exact Expectation.ret_call_later cx info args
      { e with common := (e.common.call info.funcname (callDesc cx info args) w.seqs).2.1 } _

/-- Number of calls dispatched to expectation `g`. -/
def hits (g : Nat) (log : List (Hit V)) : Nat := log.countP (·.gid == g)

/-- Number of calls to expectation `g` that got through its count and sequence checks. -/
def passes (g : Nat) (log : List (Hit V)) : Nat := log.countP fun h => h.gid == g && h.passed

/-- Of the calls to expectation `g`, exactly the first `m` passed. -/
def FirstPass (g m : Nat) (log : List (Hit V)) : Prop :=
  ∀ a h b, log = a ++ h :: b → h.gid = g → (h.passed = true ↔ hits g a < m)

/-- An expectation's settings are those of its builder chain; only its counter, its matcher's poison
flag and the progress of its return function change later. -/
structure Live (nightly : Bool) (done : List (Op V)) (w : World V) (e : Expectation V) : Prop where
  gid : e.gid < w.fresh
  count : w.log.length ≤ usizeMax → e.common.times.count = hits e.gid w.log
  range : e.common.times.range = lastOf countOf ⟨0, usizeMax⟩ e.chain
  matcher : e.common.matcher = lastOf matcherOf .always e.chain
  ret : (lastOf (retOf e.info.kind) (retDefault nightly e.info) e.chain).later e.ret ∧
    e.ret.kind = e.info.kind
  ceiling : w.log.length ≤ usizeMax →
    passes e.gid w.log ≤ e.common.times.count ∧ passes e.gid w.log ≤ e.common.times.range.end_ - 1
  exact : w.log.length ≤ usizeMax → e.common.seqHandle = none →
    FirstPass e.gid (e.common.times.range.end_ - 1) w.log
  seq : e.common.seqHandle.map (·.sid) = lastOf sequenceOf none e.chain
  poison : e.common.mpoison = true → ∃ op ∈ done, ∃ tid args upd p,
    op.callInfo? = some (tid, args, upd) ∧ e.common.matcher.matches tid args = .error p

/-- The invariant of the set of live expectations. -/
structure SysInv (nightly : Bool) (done : List (Op V)) (l : List (Expectation V)) (w : World V) : Prop where
  live : ∀ e ∈ l, Live nightly done w e
  nodup : (l.map (·.gid)).Nodup
  log : ∀ h ∈ w.log, h.gid < w.fresh

theorem hits_append (g : Nat) (log : List (Hit V)) (h : Hit V) :
    hits g (log ++ [h]) = hits g log + (if h.gid = g then 1 else 0) := by
  simp [hits, List.countP_append, List.countP_cons]

theorem hits_le (g : Nat) (log : List (Hit V)) : hits g log ≤ log.length := List.countP_le_length

theorem hits_fresh {g : Nat} {log : List (Hit V)} (h : ∀ x ∈ log, x.gid < g) : hits g log = 0 := by
  unfold hits
  rw [List.countP_eq_zero]
  intro x hx
  have := h x hx
  simp; omega

theorem passes_append (g : Nat) (log : List (Hit V)) (h : Hit V) :
    passes g (log ++ [h]) = passes g log + (if h.gid = g ∧ h.passed = true then 1 else 0) := by
  simp [passes, List.countP_append, List.countP_cons]

theorem passes_le_hits (g : Nat) (log : List (Hit V)) : passes g log ≤ hits g log := by
  unfold passes hits
  apply List.countP_mono_left
  intro x _ h
  simp at h ⊢
  exact h.1

/-- A call that passes was within the window. -/
theorem Common.call_ok_count {func desc : String} {c : Common V} {q : Seqs}
    (h : (c.call func desc q).1 = .ok ()) : c.times.count + 1 < c.times.range.end_ := by
  unfold Common.call Times.call addOne at h
  simp only at h
  repeat' split at h
  all_goals simp_all
  all_goals grind

/-- Outside of sequences, being within the window is all that counts. -/
theorem Common.call_ok_iff {func desc : String} {c : Common V} {q : Seqs} (hs : c.seqHandle = none)
    (hc : c.times.count < usizeMax) :
    (c.call func desc q).1 = .ok () ↔ c.times.count + 1 < c.times.range.end_ := by
  refine ⟨Common.call_ok_count, fun h => ?_⟩
  have h1 : c.times.count ≠ usizeMax := by omega
  have : ¬ (c.times.range.end_ ≤ c.times.count + 1) := by omega
  simp [Common.call, Times.call, addOne, h1, this, Common.verifySequence, hs, Common.satisfySequence]

theorem FirstPass.append {g m : Nat} {log : List (Hit V)} {x : Hit V} (h : FirstPass g m log)
    (hx : x.gid = g → (x.passed = true ↔ hits g log < m)) : FirstPass g m (log ++ [x]) := by
  intro a y b hl hy
  rcases List.eq_nil_or_concat b with rfl | ⟨b', z, rfl⟩
  · have := List.append_inj' hl (by simp)
    obtain ⟨rfl, h2⟩ := this
    simp at h2
    subst h2
    exact hx hy
  · have hl' : log ++ [x] = (a ++ y :: b') ++ [z] := by simp [hl]
    have := List.append_inj' hl' (by simp)
    exact h a y b' this.1 hy

theorem Ret.later_kind {a b : Ret V} (h : a.later b) : b.kind = a.kind := by
  rcases a with a | a | ⟨a, p⟩ <;> rcases b with b | b | ⟨b, p'⟩ <;> simp_all [Ret.later, Ret.kind]

theorem SysInv.step {env : Env V} {l l' : List (Expectation V)} {w w' : World V} {op : Op V} {ob : Obs V}
    {done : List (Op V)} (hi : SysInv env.nightly done l w) (h : Evo env l w op ob l' w') :
    SysInv env.nightly (done ++ [op]) l' w' := by
  obtain ⟨h1, h2, h3⟩ := hi
  replace h1 : ∀ e ∈ l, Live env.nightly (done ++ [op]) w e := by
    intro e he
    obtain ⟨a1, a2, a3, a4, a5, a6, a8, a9, a7⟩ := h1 e he
    refine ⟨a1, a2, a3, a4, a5, a6, a8, a9, fun hp => ?_⟩
    obtain ⟨op', hop, rest⟩ := a7 hp
    exact ⟨op', List.mem_append_left _ hop, rest⟩
  cases h with
  | quiet hs _ =>
    exact ⟨fun e he => h1 e (hs.subset he), h2.sublist (hs.map _), h3⟩
  | @expect bs info ob l' r hb hr hr' hins =>
    obtain ⟨l1, l2, rfl, rfl⟩ := hins
    have hf := Expectation.builds_frame bs (Expectation.new env.nightly info w.fresh) w.seqs
    have hcfg : Cfg env.nightly info (newExp env.nightly info bs w) :=
      (Cfg.new env.nightly info w.fresh).builds w.seqs bs
    have hg : (newExp env.nightly info bs w).gid = w.fresh := hf.1
    refine ⟨?_, ?_, ?_⟩
    · intro e he
      have hcase : e ∈ l1 ++ l2 ∨ e = newExp env.nightly info bs w := by
        simp at he ⊢; grind
      rcases hcase with he | rfl
      · have := h1 e he
        exact ⟨Nat.lt_succ_of_lt this.gid, this.count, this.range, this.matcher, this.ret,
          this.ceiling, this.exact, this.seq, this.poison⟩
      · refine ⟨by rw [hg]; exact Nat.lt_succ_self _, ?_, hcfg.range, hcfg.matcher,
          ⟨?_, by rw [hcfg.info]; exact hcfg.kind⟩, ?_, ?_, hcfg.seq, ?_⟩
        · intro _
          rw [hg, hits_fresh h3]
          exact hcfg.count
        · rw [hcfg.info, ← hcfg.ret]; exact Ret.later_refl _
        · intro _
          have := passes_le_hits w.fresh w.log
          rw [hits_fresh h3] at this
          rw [hg]; show passes w.fresh w.log ≤ _ ∧ passes w.fresh w.log ≤ _
          omega
        · intro _ _ a h b hl hh
          have := h3 h (by rw [hl]; simp)
          omega
        · intro hp; rw [hcfg.poison] at hp; simp at hp
    · have hnew : w.fresh ∉ (l1 ++ l2).map (·.gid) := by
        intro hm
        obtain ⟨e, he, hge⟩ := List.mem_map.mp hm
        have := (h1 e he).gid
        omega
      have hp : ((l1 ++ newExp env.nightly info bs w :: l2).map (·.gid)).Perm
          (w.fresh :: (l1 ++ l2).map (·.gid)) := by
        rw [← hg]
        exact (List.perm_middle).map _
      rw [hp.nodup_iff]
      exact List.nodup_cons.mpr ⟨hnew, h2⟩
    · intro x hx
      exact Nat.lt_succ_of_lt (h3 x hx)
  | @pred tid args upd e e' p ob l' hc hch hm ho =>
    obtain ⟨l1, l2, rfl, rfl⟩ := hch
    have he' := Expectation.matches_err hm
    have hL := h1 e (by simp)
    refine ⟨?_, ?_, h3⟩
    · intro x hx
      have hcase : x ∈ l1 ++ e :: l2 ∨ x = e' := by simp at hx ⊢; grind
      rcases hcase with hx | rfl
      · exact h1 x hx
      · rw [he']
        refine ⟨hL.gid, hL.count, hL.range, hL.matcher, hL.ret, hL.ceiling, hL.exact, hL.seq, fun _ => ?_⟩
        by_cases hpo : e.common.mpoison = true
        · exact hL.poison hpo
        · refine ⟨op, by simp, tid, args, upd, p, hc, ?_⟩
          simp only [Expectation.matches, Common.matches, hpo] at hm
          simp only [Bool.false_eq_true, ↓reduceIte] at hm
          split at hm <;> simp_all
    · have : e'.gid = e.gid := by rw [he']
      simpa [this] using h2
  | @hit tid args upd e ob l' info hc hm hch ho =>
    obtain ⟨l1, l2, rfl, rfl⟩ := hch
    have hF := Expectation.call_frame ⟨env.nightly, tid, env.dbg, upd⟩ info args e w
    obtain ⟨b, hb, hW⟩ := Expectation.call_world ⟨env.nightly, tid, env.dbg, upd⟩ info args e w
    have hlat := Expectation.call_later ⟨env.nightly, tid, env.dbg, upd⟩ info args e w
    have hok : b = true → e.common.times.count + 1 < e.common.times.range.end_ :=
      fun h => Common.call_ok_count (hb.mp h)
    generalize e.call ⟨env.nightly, tid, env.dbg, upd⟩ info args w = o at *
    simp only at hF hW
    have hL := h1 e (by simp)
    have hlog : o.2.2.log = w.log ++ [⟨e.gid, tid, args, b, upd⟩] := by rw [hW]
    have hfr : o.2.2.fresh = w.fresh := by rw [hW]
    have hgid : o.2.1.gid = e.gid := by rw [hF]
    have hgl : ∀ x ∈ l1 ++ l2, x.gid ≠ e.gid := by
      have hp : ((l1 ++ e :: l2).map (·.gid)).Perm (e.gid :: (l1 ++ l2).map (·.gid)) :=
        (List.perm_middle).map _
      rw [hp.nodup_iff] at h2
      intro x hx hxe
      exact (List.nodup_cons.mp h2).1 (List.mem_map.mpr ⟨x, hx, hxe⟩)
    refine ⟨?_, ?_, ?_⟩
    · intro x hx
      have hcase : x ∈ l1 ++ l2 ∨ x = o.2.1 := by simp at hx ⊢; grind
      rcases hcase with hx | rfl
      · have hLx := h1 x (by simp at hx ⊢; grind)
        have hne : e.gid ≠ x.gid := fun h => hgl x hx h.symm
        refine ⟨by rw [hfr]; exact hLx.gid, ?_, hLx.range, hLx.matcher, hLx.ret, ?_, ?_, hLx.seq, hLx.poison⟩
        · intro hlen
          rw [hlog] at hlen ⊢
          rw [hits_append, hLx.count (by simp at hlen; omega)]
          simp [hne]
        · intro hlen
          rw [hlog] at hlen ⊢
          rw [passes_append]
          simpa [hne] using hLx.ceiling (by simp at hlen; omega)
        · intro hlen hs
          rw [hlog] at hlen ⊢
          exact (hLx.exact (by simp at hlen; omega) hs).append fun h => absurd h hne
      · refine ⟨by rw [hgid, hfr]; exact hL.gid, ?_, ?_, ?_, ?_, ?_, ?_, ?_, ?_⟩
        · intro hlen
          rw [hlog] at hlen ⊢
          rw [hgid, hits_append]
          have hc := hL.count (by simp at hlen; omega)
          rw [hF]
          simp only
          have hle := hits_le e.gid w.log
          simp at hlen
          rw [hc, atomicInc]
          have : hits e.gid w.log ≠ usizeMax := by omega
          simp [this]
        · rw [hF]; exact hL.range
        · rw [hF]; exact hL.matcher
        · obtain ⟨hinf, hk⟩ := hL.ret
          have hch : o.2.1.chain = e.chain := by rw [hF]
          have hin : o.2.1.info = e.info := by rw [hF]
          rw [hin]
          exact ⟨by rw [hch]; exact Ret.later_trans hinf hlat, (Ret.later_kind hlat).trans hk⟩
        · intro hlen
          rw [hlog] at hlen ⊢
          simp at hlen
          obtain ⟨c1, c2⟩ := hL.ceiling (by omega)
          have hc := hL.count (by omega)
          have hle := hits_le e.gid w.log
          have hne : hits e.gid w.log ≠ usizeMax := by omega
          rw [hgid, passes_append, hF]
          simp only [atomicInc, hc, hne, ↓reduceIte]
          rw [hc] at hok c1
          by_cases hbt : b = true
          · have := hok hbt
            simp only [hbt, and_self, ↓reduceIte]
            omega
          · simp only [hbt]
            simp
            omega
        · intro hlen hs
          rw [hlog] at hlen ⊢
          simp at hlen
          have hs' : e.common.seqHandle = none := by rw [hF] at hs; exact hs
          have hc := hL.count (by omega)
          have hle := hits_le e.gid w.log
          rw [hgid]
          have hr : o.2.1.common.times.range = e.common.times.range := by rw [hF]
          rw [hr]
          refine (hL.exact (by omega) hs').append fun _ => ?_
          rw [← hc]
          show b = true ↔ _
          rw [hb, Common.call_ok_iff hs' (by omega)]
          omega
        · rw [hF]; exact hL.seq
        · rw [hF]; exact hL.poison
    · simpa [hgid] using h2
    · intro x hx
      rw [hlog] at hx
      rw [hfr]
      rcases List.mem_append.mp hx with hx | hx
      · exact h3 x hx
      · simp at hx; subst hx; exact hL.gid

/-- Induction over program executions, for properties of the live expectations and shared state that
may depend on the operations executed so far. -/
theorem run_induct {env : Env V} (P : List (Op V) → List (Expectation V) → World V → Prop)
    (hstep : ∀ done op l w ob l' w', P done l w → Evo env l w op ob l' w' → P (done ++ [op]) l' w')
    (ops : List (Op V)) (s : Sys V) (done : List (Op V)) (h : P done s.all s.world) :
    P (done ++ ops) (Sys.run env ops s).2.all (Sys.run env ops s).2.world := by
  induction ops generalizing s done with
  | nil => simpa [Sys.run] using h
  | cons op ops ih =>
    have := ih (s.step env op).2 (done ++ [op]) (hstep _ _ _ _ _ _ _ h (step_evo env s op))
    simpa [Sys.run] using this

theorem Sys.init_all (sts : List (MethodInfo V)) : (Sys.init sts).all = [] := by
  simp only [Sys.all, Sys.init, List.flatMap_nil, List.nil_append, List.flatMap_map]
  rw [List.flatMap_eq_nil_iff]
  intro mi _
  simp only [StaticFn.new, Store.new]
  split <;> rfl

/-- The invariant holds in every reachable state. -/
theorem sysInv_run (env : Env V) (sts : List (MethodInfo V)) (ops : List (Op V)) :
    SysInv env.nightly ops (Sys.run env ops (Sys.init sts)).2.all
      (Sys.run env ops (Sys.init sts)).2.world := by
  have := run_induct (env := env) (fun done l w => SysInv env.nightly done l w)
    (fun _ _ _ _ _ _ _ h hE => h.step hE) ops (Sys.init sts) []
    ⟨by simp [Sys.init_all], by simp [Sys.init_all], by simp [Sys.init]⟩
  exact this

end Mockall
