import Verif.Lemmas.Target
import Verif.Lemmas.Refine
import Verif.Lemmas.Sim
import Verif.Props.Times

/-! # C06-C12: which expectation answers a call -/

set_option linter.unusedSimpArgs false

namespace Mockall.Props

open Spec

variable {V : Type}

/-! ## C06: first-in first-out dispatch -/

/-- **C06, refinement**: for every program on one mocked method (declare expectations, call it),
what the user observes, and which user closures run with which arguments in which order, is exactly
what the specification `Spec.State` says: a call is answered by the first declared expectation that
accepts the arguments and is not exhausted. -/
theorem C06_refinement (tid : Nat) (nightly : Bool) (dbg : V → String) (info : FnInfo V)
    (hk : info.kind = .static) (ops : List (SOp V)) (ht : TameOps ops) (hl : ops.length ≤ usizeMax)
    (w : World V) (hw : w.runs = []) :
    let o := MState.run nightly dbg info (ops.map (SOp.code tid)) (MState.init w)
    let p := State.run nightly dbg info tid ops ⟨[], []⟩
    o.1 = p.1 ∧ o.2.world.runs = p.2.runs := by
  have := run_sim tid nightly info hk dbg ops [] w ⟨[], []⟩ ht trivial hw 0
    (fun s hs => by simp at hs) (by omega)
  exact ⟨this.1, this.2.2.2⟩

/-- A history with two overlapping expectations, run on the specification. -/
example : let ops : List (SOp Nat) :=
      [.expect [.withf false (fun as => as == [1]), .times (.n 1), .returnConst false 10],
       .expect [.returning false 1 (fun h _ => h.length)],
       .call [1], .call [1], .call [2], .call [1]]
    TameOps ops ∧ (State.run false toString ⟨.static, "f", "f", none⟩ 0 ops ⟨[], []⟩).1.map
      (fun | .returned (.ok v) => some v | _ => none) = [none, none, some 10, some 0, some 1, some 2] := by
  refine ⟨?_, by decide⟩
  intro op hop bs hbs b hb a ha
  simp at hop
  rcases hop with rfl | rfl | rfl | rfl | rfl <;> simp at hbs <;> subst hbs <;> simp at hb <;>
    rcases hb with rfl | rfl | rfl <;> simp at ha
  subst ha
  decide

/-- The largest number of calls an expectation takes. -/
def maxOf (e : Expectation V) : Nat := (window (countArg e.chain)).2

/-- `e`'s last configured matcher accepts the arguments on this thread. -/
def Accepts (tid : Nat) (args : List V) (e : Expectation V) : Prop :=
  verdict tid args e.chain = .ok true

/-- `e` accepts the arguments and has taken fewer calls than its maximum. -/
def Ready (w : World V) (tid : Nat) (args : List V) (e : Expectation V) : Prop :=
  Accepts tid args e ∧ w.log.countP (·.gid == e.gid) < maxOf e

/-- The side conditions of a call after program `ops`: user predicates of the callee's expectations
do not panic in any call of the program or in this one, no `times` argument is degenerate, and there
were fewer than `usize::MAX` calls. -/
structure Calm (ops : List (Op V)) (s : Sys V) (c : Callee) (tid : Nat) (args : List V) : Prop where
  past : ∀ e ∈ s.target c, ∀ op ∈ ops, ∀ t as u, op.callInfo? = some (t, as, u) →
    ∃ b, verdict t as e.chain = .ok b
  now : ∀ e ∈ s.target c, ∃ b, verdict tid args e.chain = .ok b
  tame : ∀ e ∈ s.target c, Tame (countArg e.chain)
  short : s.world.log.length < usizeMax

/-- What `Calm` gives for the model's fields. -/
theorem Calm.fields {env : Env V} {sts : List (MethodInfo V)} {ops : List (Op V)} {c : Callee} {tid : Nat}
    {args : List V} {e : Expectation V}
    (hc : Calm ops (Sys.run env ops (Sys.init sts)).2 c tid args)
    (he : e ∈ (Sys.run env ops (Sys.init sts)).2.target c) :
    (∃ b, e.matches tid args = (.ok b, e) ∧ (b = true ↔ Accepts tid args e)) ∧
    0 < e.common.times.range.end_ ∧ e.common.mpoison = false ∧
    (e.full = false ↔
      (Sys.run env ops (Sys.init sts)).2.world.log.countP (·.gid == e.gid) < maxOf e) := by
  have hL := (sysInv_run env sts ops).live e (target_all _ c e he)
  have hp : e.common.mpoison = false := by
    cases h : e.common.mpoison with
    | false => rfl
    | true =>
      obtain ⟨op, hop, t, as, u, p, h1, h2⟩ := hL.poison h
      obtain ⟨b, hb⟩ := hc.past e he op hop t as u h1
      rw [hL.matcher, verdict_matches, hb] at h2
      simp at h2
  obtain ⟨b, hb⟩ := hc.now e he
  have hr := hL.range
  rw [lastOf_countOf, (halfOpen_window (hc.tame e he)).1] at hr
  have hcount := hL.count (Nat.le_of_lt hc.short)
  refine ⟨⟨b, ?_, ?_⟩, ?_, hp, ?_⟩
  · simp [Expectation.matches, Common.matches, hp, hL.matcher, verdict_matches, hb]
  · unfold Accepts; rw [hb]; simp
  · rw [hr]; simp
  · unfold Expectation.full maxOf
    rw [hr, hcount]
    simp [hits]

/-- The scan over a calm target. -/
theorem Calm.scan {env : Env V} {sts : List (MethodInfo V)} {ops : List (Op V)} {c : Callee} {tid : Nat}
    {args : List V} (hc : Calm ops (Sys.run env ops (Sys.init sts)).2 c tid args)
    (cx : Cx V) (htid : cx.tid = tid) (info : FnInfo V) (w : World V) :
    let es := (Sys.run env ops (Sys.init sts)).2.target c
    Expectations.call cx info args es w =
      match es.findIdx? (fun e => e.acc cx.tid args && (!e.full || es.length == 1)) with
      | none => (.ok none, es, w)
      | some i =>
        match es[i]? with
        | none => (.ok none, es, w)
        | some e =>
          (liftRes (e.call cx info args w).1, es.set i (e.call cx info args w).2.1,
            (e.call cx info args w).2.2) := by
  intro es
  refine callScan_eq cx info args es.length es w (fun e he => ?_) (fun e he => (hc.fields he).2.1)
  rw [htid]
  obtain ⟨b, hb, _⟩ := (hc.fields he).1
  exact ⟨b, by rw [hb]⟩

theorem acc_iff {tid : Nat} {args : List V} {e : Expectation V} {b : Bool}
    (h : e.matches tid args = (.ok b, e)) : e.acc tid args = b := by
  simp [Expectation.acc, h]

/-- **C06 in whole programs** (any kind of method, instance or static, generic or not, with or without
sequences): after any program, a call on a function with ready expectations is dispatched to the
ready expectation that was declared first (`gid` is the ordinal of the declaration), and to no other;
the caller gets that expectation's outcome. -/
theorem C06_program (env : Env V) (sts : List (MethodInfo V)) (ops : List (Op V)) (c : Callee)
    (mi : MethodInfo V) (tid : Nat) (args : List V) (u : V → V) :
    let s := (Sys.run env ops (Sys.init sts)).2
    s.usable c mi → Calm ops s c tid args →
    ∀ e ∈ s.target c, Ready s.world tid args e →
      (∀ e' ∈ s.target c, Ready s.world tid args e' → e.gid ≤ e'.gid) →
      let t := s.step env (c.op tid args u)
      (∃ passed, t.2.world.log = s.world.log ++ [⟨e.gid, tid, args, passed, c.upd u⟩]) ∧
      t.1 = .value (e.call ⟨env.nightly, tid, env.dbg, c.upd u⟩ (mi.fn c.key) args s.world).1 := by
  intro s hu hc e he hr hmin t
  obtain ⟨h1, h2, _, _⟩ := step_call env s c mi hu tid args u
  have hscan := hc.scan (env := env) (sts := sts) ⟨env.nightly, tid, env.dbg, c.upd u⟩ rfl (mi.fn c.key) s.world
  simp only at hscan
  have hsorted := target_sorted env sts ops c
  -- the first index found is that of `e`
  have hfind : ∃ i, (s.target c).findIdx? (fun e => e.acc tid args && (!e.full || (s.target c).length == 1)) = some i ∧
      (s.target c)[i]? = some e := by
    obtain ⟨j, hj, hje⟩ := List.getElem_of_mem he
    have hacc : ∀ x ∈ s.target c, (x.acc tid args && !x.full) = true ↔ Ready s.world tid args x := by
      intro x hx
      obtain ⟨⟨b, hb, hb'⟩, _, _, hf⟩ := hc.fields hx
      have : x.acc tid args = b := acc_iff hb
      unfold Ready
      rw [← hf, this, Bool.and_eq_true, hb']
      simp
    have hej : ((s.target c)[j].acc tid args && !(s.target c)[j].full) = true := by
      rw [hje]; exact (hacc e he).mpr hr
    have hsome : ((s.target c).findIdx? (fun e => e.acc tid args && (!e.full || (s.target c).length == 1))).isSome := by
      rw [List.findIdx?_isSome, List.any_eq_true]
      refine ⟨e, he, ?_⟩
      rw [hje] at hej
      simp only [Bool.and_eq_true] at hej ⊢
      simp [hej.1, hej.2]
    obtain ⟨i, hi⟩ := Option.isSome_iff_exists.mp hsome
    refine ⟨i, hi, ?_⟩
    obtain ⟨hil, hip, hlt⟩ := List.findIdx?_eq_some_iff_getElem.mp hi
    have hij : i = j := by
      rcases Nat.lt_trichotomy i j with h | h | h
      · -- a different ready (or sole) expectation before `e`
        have hne : ((s.target c).length == 1) = false := by
          have : 1 < (s.target c).length := by omega
          simp; omega
        simp only [hne, Bool.or_false] at hip
        have hri := (hacc _ (List.getElem_mem hil)).mp hip
        have hle := hmin _ (List.getElem_mem hil) hri
        have hlt' : (s.target c)[i].gid < (s.target c)[j].gid := by
          have := List.pairwise_iff_getElem.mp hsorted i j (by simpa using hil) (by simpa using hj) h
          simpa using this
        rw [hje] at hlt'
        omega
      · exact h
      · have := hlt j h
        simp only [Bool.and_eq_true] at hej
        simp [hej.1, hej.2] at this
    subst hij
    rw [List.getElem?_eq_getElem hj, hje]
  obtain ⟨i, hi, hge⟩ := hfind
  rw [hscan, hi] at h1 h2
  have hge' : ((Sys.run env ops (Sys.init sts)).2.target c)[i]? = some e := hge
  simp only [hge'] at h1 h2
  obtain ⟨b, _, hw⟩ := Expectation.call_world ⟨env.nightly, tid, env.dbg, c.upd u⟩ (mi.fn c.key) args e s.world
  refine ⟨⟨b, ?_⟩, ?_⟩
  · show (s.step env (c.op tid args u)).2.world.log = _
    rw [h2, hw]
  · show (s.step env (c.op tid args u)).1 = _
    rw [h1]
    cases (e.call ⟨env.nightly, tid, env.dbg, c.upd u⟩ (mi.fn c.key) args s.world).1 <;> rfl

/-! ## C07: no matching expectation -/

/-- **C07**: after any program, if no expectation on the function is ready (and there is not just one
expectation, which accepts the arguments), a call panics with "No matching expectation found" naming
the call, and leaves the whole state (all objects, static functions, sequences, logs) as it was. -/
theorem C07_no_match (env : Env V) (sts : List (MethodInfo V)) (ops : List (Op V)) (c : Callee)
    (mi : MethodInfo V) (tid : Nat) (args : List V) (u : V → V) :
    let s := (Sys.run env ops (Sys.init sts)).2
    s.usable c mi → Calm ops s c tid args →
    (∀ e ∈ s.target c, ¬ Ready s.world tid args e) →
    (∀ e, s.target c = [e] → ¬ Accepts tid args e) →
    s.step env (c.op tid args u) =
      (.value (.error (.noMatch
        (mi.base.descname ++ "(" ++ ", ".intercalate (args.map env.dbg) ++ ")"))), s) := by
  intro s hu hc hnr hsole
  obtain ⟨h1, h2, h3, h4⟩ := step_call env s c mi hu tid args u
  have hscan := hc.scan (env := env) (sts := sts) ⟨env.nightly, tid, env.dbg, c.upd u⟩ rfl (mi.fn c.key) s.world
  simp only at hscan
  have hnone : (s.target c).findIdx? (fun e => e.acc tid args && (!e.full || (s.target c).length == 1)) = none := by
    rw [List.findIdx?_eq_none_iff]
    intro x hx
    obtain ⟨⟨b, hb, hb'⟩, _, _, hf⟩ := hc.fields hx
    have hxa : x.acc tid args = b := acc_iff hb
    cases b with
    | false => simp [hxa]
    | true =>
      have ha := hb'.mp rfl
      have hfull : x.full = true := by
        cases hfx : x.full with
        | true => rfl
        | false => exact absurd ⟨ha, hf.mp hfx⟩ (hnr x hx)
      have hlen : ((s.target c).length == 1) = false := by
        simp only [beq_eq_false_iff_ne]
        intro hl
        obtain ⟨y, hy⟩ := List.length_eq_one_iff.mp hl
        have : y = x := by rw [hy] at hx; exact (List.mem_singleton.mp hx).symm
        subst this
        exact hsole y hy ha
      simp [hfull, hlen]
  rw [hscan, hnone] at h1 h4
  have h5 := h4 rfl rfl ⟨_, rfl⟩
  exact Prod.ext h1 h5

/-- **C07, converse**: if some expectation is ready, or the only one accepts the arguments, the call is
dispatched to an expectation (it appears in the log), so it does not fail for want of one. -/
theorem C07_match (env : Env V) (sts : List (MethodInfo V)) (ops : List (Op V)) (c : Callee)
    (mi : MethodInfo V) (tid : Nat) (args : List V) (u : V → V) :
    let s := (Sys.run env ops (Sys.init sts)).2
    s.usable c mi → Calm ops s c tid args →
    ((∃ e ∈ s.target c, Ready s.world tid args e) ∨ (∃ e, s.target c = [e] ∧ Accepts tid args e)) →
    ∃ e ∈ s.target c, ∃ passed, Accepts tid args e ∧
      ((s.target c).length ≠ 1 → Ready s.world tid args e) ∧
      (s.step env (c.op tid args u)).2.world.log = s.world.log ++ [⟨e.gid, tid, args, passed, c.upd u⟩] := by
  intro s hu hc hex
  obtain ⟨h1, h2, h3, h4⟩ := step_call env s c mi hu tid args u
  have hscan := hc.scan (env := env) (sts := sts) ⟨env.nightly, tid, env.dbg, c.upd u⟩ rfl (mi.fn c.key) s.world
  simp only at hscan h2
  have hsome : ((s.target c).findIdx? (fun e => e.acc tid args && (!e.full || (s.target c).length == 1))).isSome := by
    rw [List.findIdx?_isSome, List.any_eq_true]
    rcases hex with ⟨e, he, ha, hh⟩ | ⟨e, hs, ha⟩
    · obtain ⟨⟨b, hb, hb'⟩, _, _, hf⟩ := hc.fields he
      refine ⟨e, he, ?_⟩
      rw [acc_iff hb, hb'.mpr ha, hf.mpr hh]
      rfl
    · have he : e ∈ s.target c := by rw [hs]; simp
      obtain ⟨⟨b, hb, hb'⟩, _, _, hf⟩ := hc.fields he
      refine ⟨e, he, ?_⟩
      rw [acc_iff hb, hb'.mpr ha, hs]
      simp
  obtain ⟨i, hi⟩ := Option.isSome_iff_exists.mp hsome
  obtain ⟨hil, hip, _⟩ := List.findIdx?_eq_some_iff_getElem.mp hi
  rw [hscan, hi] at h2
  have hge : ((Sys.run env ops (Sys.init sts)).2.target c)[i]? = some (s.target c)[i] :=
    List.getElem?_eq_getElem hil
  simp only [hge] at h2
  obtain ⟨b, _, hw⟩ := Expectation.call_world ⟨env.nightly, tid, env.dbg, c.upd u⟩ (mi.fn c.key) args
    (s.target c)[i] s.world
  have hmem := List.getElem_mem hil
  obtain ⟨⟨b', hb, hb'⟩, _, _, hf⟩ := hc.fields hmem
  rw [acc_iff hb] at hip
  simp only [Bool.and_eq_true] at hip
  refine ⟨(s.target c)[i], hmem, b, hb'.mp hip.1, fun hl => ?_, by rw [h2, hw]⟩
  have hbq : ((s.target c).length == 1) = false := by simpa using hl
  rw [hbq] at hip
  exact ⟨hb'.mp hip.1, hf.mp (by simpa using hip.2)⟩

/-! ## C08: exhausted expectations step aside -/

/-- **C08**: a `never()`/`times(0)` expectation lets no call through, in any program. -/
theorem C08_never (env : Env V) (sts : List (MethodInfo V)) (ops : List (Op V)) :
    let s := (Sys.run env ops (Sys.init sts)).2
    ∀ e ∈ s.all, s.world.log.length ≤ usizeMax → countArg e.chain = .n 0 →
      ∀ h ∈ s.world.log, h.gid = e.gid → h.passed = false := by
  intro s e he hl ha h hh hg
  have := C01_never_more env sts ops e he 0 (by rw [ha]; decide)
    (by rw [ha]; exact ⟨rfl, by decide, fun k _ hk => by simp only [permits] at hk; omega⟩) hl
  have h0 : s.world.log.countP (fun h => h.gid == e.gid && h.passed) = 0 := Nat.le_zero.mp this
  rw [List.countP_eq_zero] at h0
  have := h0 h hh
  simpa [hg] using this

/-- **C08**: with two or more expectations on a function, a call is never dispatched to an exhausted
one: whichever expectation a call is added to in the log had calls left. -/
theorem C08_skip (env : Env V) (sts : List (MethodInfo V)) (ops : List (Op V)) (c : Callee)
    (mi : MethodInfo V) (tid : Nat) (args : List V) (u : V → V) :
    let s := (Sys.run env ops (Sys.init sts)).2
    s.usable c mi → Calm ops s c tid args → 2 ≤ (s.target c).length →
    ∀ g passed, (s.step env (c.op tid args u)).2.world.log = s.world.log ++ [⟨g, tid, args, passed, c.upd u⟩] →
      ∃ e ∈ s.target c, e.gid = g ∧ Ready s.world tid args e := by
  intro s hu hc hlen g passed hlog
  by_cases hex : ∃ e ∈ s.target c, Ready s.world tid args e
  · obtain ⟨e, he, p, _, hr, hl⟩ := C07_match env sts ops c mi tid args u hu hc (.inl hex)
    have hl' := List.append_cancel_left (hlog.symm.trans hl)
    simp at hl'
    exact ⟨e, he, hl'.1.symm, hr (by show (s.target c).length ≠ 1; omega)⟩
  · have := C07_no_match env sts ops c mi tid args u hu hc (fun e he h => hex ⟨e, he, h⟩)
      (fun e h => by
        exfalso
        have h' : s.target c = [e] := h
        rw [h'] at hlen; simp at hlen)
    have h2 : (s.step env (c.op tid args u)).2.world.log = s.world.log := by rw [this]
    rw [hlog] at h2
    simp at h2

/-! ### A state that meets the hypotheses of C06-C08 -/

/-- `Calm` is about builder chains only. -/
theorem Calm.of_chains {ops : List (Op V)} {s : Sys V} {c : Callee} {tid : Nat} {args : List V}
    (cs : List (List (Build V))) (hcs : (s.target c).map (·.chain) = cs) (hl : s.world.log.length < usizeMax)
    (h : ∀ ch ∈ cs, Tame (countArg ch) ∧ ∀ t as, ∃ b, verdict t as ch = .ok b) :
    Calm ops s c tid args := by
  have key : ∀ e ∈ s.target c, e.chain ∈ cs := fun e he => by
    rw [← hcs]; exact List.mem_map_of_mem he
  exact ⟨fun e he _ _ t as _ _ => (h _ (key e he)).2 t as, fun e he => (h _ (key e he)).2 _ _,
    fun e he => (h _ (key e he)).1, hl⟩

/-- After `demoOps` (`demoOps`: two expectations, the first one exhausted) a call with argument 1 is
calm, the method exists, the first expectation accepts but is not ready, the second is ready. -/
example : let s := (Sys.run ⟨false, toString, id⟩ demoOps (Sys.init [])).2
    Calm demoOps s (.inst 0 0 0) 0 [1] ∧ (∃ mi, s.usable (.inst 0 0 0) mi) ∧
    ∃ e1 e2, s.target (.inst 0 0 0) = [e1, e2] ∧ Accepts 0 [1] e1 ∧ ¬ Ready s.world 0 [1] e1 ∧
      Ready s.world 0 [1] e2 := by
  intro s
  refine ⟨Calm.of_chains [[.times (.range 1 3), .withf (fun as => .ok (as == [1])), .returnConst 5],
    [.times (.rangeFrom 1), .returnConst 6]] rfl (by decide) ?_, ⟨_, rfl, trivial⟩, _, _, rfl, ?_, ?_, ?_⟩
  · intro ch hch
    simp at hch
    rcases hch with rfl | rfl
    · exact ⟨by decide, fun t as => ⟨as == [1], rfl⟩⟩
    · exact ⟨by decide, fun t as => ⟨true, rfl⟩⟩
  · exact rfl
  · rintro ⟨_, h⟩
    revert h
    decide
  · exact ⟨rfl, by decide⟩

/-! ## C09: a call touches only its expectation -/

/-- **C09**: in any state, a call on one function either changes no expectation anywhere, or replaces
exactly one of the callee's expectations, of which only the number of calls, the progress of its
return value setting and (if its predicate panicked) the poison flag of its matcher can differ;
no sequence other than those of the callee's expectations moves. -/
theorem C09_frame (env : Env V) (s : Sys V) (c : Callee) (tid : Nat) (args : List V) (u : V → V) :
    let t := (s.step env (c.op tid args u)).2
    (t.all = s.all ∨ ∃ l1 e e' l2, s.all = l1 ++ e :: l2 ∧ t.all = l1 ++ e' :: l2 ∧
      e'.gid = e.gid ∧ e'.chain = e.chain ∧ e'.common.matcher = e.common.matcher ∧
      e'.common.seqHandle = e.common.seqHandle ∧ e'.common.times.range = e.common.times.range) ∧
    (∀ sid, (∀ e ∈ s.all, ∀ h, e.common.seqHandle = some h → h.sid ≠ sid) →
      t.world.seqs sid = s.world.seqs sid) := by
  intro t
  have h := step_evo env s (c.op tid args u)
  generalize hob : (s.step env (c.op tid args u)).1 = ob at h
  show (t.all = s.all ∨ _) ∧ _
  have htl : t.all = (s.step env (c.op tid args u)).2.all := rfl
  have htw : t.world = (s.step env (c.op tid args u)).2.world := rfl
  rw [htl, htw]
  have hsub : (s.step env (c.op tid args u)).2.all.Sublist s.all →
      (s.step env (c.op tid args u)).2.all = s.all := by
    intro hsub
    -- a call never removes an expectation: lengths agree
    have hlen : (s.step env (c.op tid args u)).2.all.length = s.all.length := by
      have key : ∀ (st : Store V) (cx : Cx V) (mi : MethodInfo V) (k : Key) (w : World V),
          (st.call cx mi k args w).2.1.all.length = st.all.length := by
        intro st cx mi k w
        have h := Store.call_evo cx mi k args st w
        generalize st.call cx mi k args w = x at *
        generalize x.1 = r at *
        generalize x.2.1.all = l' at *
        generalize x.2.2 = w' at *
        cases h with
        | none => rfl
        | early => rfl
        | pred h _ => obtain ⟨l1, l2, h1, h2⟩ := h; rw [h1, h2]; simp
        | hit h _ _ => obtain ⟨l1, l2, h1, h2⟩ := h; rw [h1, h2]; simp
      cases c with
      | inst o m k =>
        simp only [Callee.op, Sys.step]
        rcases hobj : s.objs[o]? with _ | _ | obj
        · rfl
        · rfl
        · simp only [Obj.call]
          cases hm : obj[m]? with
          | none => rfl
          | some sl =>
            obtain ⟨a, b, e1, e2⟩ := flatMap_set_split optAll hobj
            obtain ⟨c', d, e3, e4⟩ := flatMap_set_split (fun sl : Slot V => sl.store.all) hm
            simp only [Sys.all, e1, e2, optAll, Obj.all, e3, e4, List.length_append, key]
      | stat f k =>
        simp only [Callee.op, Sys.step]
        cases hf : s.statics[f]? with
        | none => rfl
        | some sf =>
          obtain ⟨a, b, e1, e2⟩ := flatMap_set_split (fun f : StaticFn V => f.store.all) hf
          simp only [StaticFn.call]
          split <;> simp only [Sys.all, e1, e2, List.length_append, key]
    exact hsub.eq_of_length hlen
  generalize hl' : (s.step env (c.op tid args u)).2.all = l' at *
  generalize hw' : (s.step env (c.op tid args u)).2.world = w' at *
  cases h with
  | quiet hs _ => exact ⟨.inl (hsub hs), fun _ _ => rfl⟩
  | expect hb => cases c <;> simp [Callee.op, Op.builds?] at hb
  | @pred tid' args' upd' e e' p _ _ hc hch hm ho =>
    obtain ⟨l1, l2, h1, h2⟩ := hch
    have he := Expectation.matches_err hm
    exact ⟨.inr ⟨l1, e, e', l2, h1, h2, by rw [he], by rw [he], by rw [he], by rw [he], by rw [he]⟩, fun _ _ => rfl⟩
  | @hit tid' args' upd' e _ _ info hc hm hch ho =>
    obtain ⟨l1, l2, h1, h2⟩ := hch
    have hf := Expectation.call_frame ⟨env.nightly, tid', env.dbg, upd'⟩ info args' e s.world
    obtain ⟨b, _, hw⟩ := Expectation.call_world ⟨env.nightly, tid', env.dbg, upd'⟩ info args' e s.world
    simp only at hf hw
    refine ⟨.inr ⟨l1, e, _, l2, h1, h2, by rw [hf], by rw [hf], by rw [hf], by rw [hf], by rw [hf]⟩, ?_⟩
    intro sid hsid
    rw [hw]
    simp only
    rcases Common.call_seqs info.funcname (callDesc ⟨env.nightly, tid', env.dbg, upd'⟩ info args') e.common s.world.seqs with
      h | ⟨hh, hh1, hh2⟩
    · rw [h]
    · rw [hh2]
      have : hh.sid ≠ sid := hsid e (by rw [h1]; simp) hh hh1
      simp [Seqs.set, Ne.symm this]

/-- **C09, other objects and functions**: a call on an instance method leaves every other object, every
other method of the object and every static function as they were; a call on a static function leaves
all objects and all other static functions as they were. -/
theorem C09_others (env : Env V) (s : Sys V) (c : Callee) (tid : Nat) (args : List V) (u : V → V) :
    let t := (s.step env (c.op tid args u)).2
    match c with
    | .inst o m _ =>
      t.statics = s.statics ∧ (∀ o', o' ≠ o → t.objs[o']? = s.objs[o']?) ∧
      (∀ obj, s.objs[o]? = some (some obj) → ∃ obj', t.objs[o]? = some (some obj') ∧
        ∀ m', m' ≠ m → obj'[m']? = obj[m']?)
    | .stat f _ => t.objs = s.objs ∧ ∀ f', f' ≠ f → t.statics[f']? = s.statics[f']? := by
  cases c with
  | inst o m k =>
    simp only [Callee.op, Sys.step]
    rcases hobj : s.objs[o]? with _ | _ | obj
    · exact ⟨rfl, fun _ _ => rfl, fun _ h => by simp at h⟩
    · exact ⟨rfl, fun _ _ => rfl, fun _ h => by simp at h⟩
    · simp only [Obj.call]
      cases hm : obj[m]? with
      | none => exact ⟨rfl, fun _ _ => rfl, fun obj' h => ⟨obj', by simp at h; rw [hobj, h], fun _ _ => rfl⟩⟩
      | some sl =>
        have hl : o < s.objs.length := (List.getElem?_eq_some_iff.mp hobj).1
        refine ⟨rfl, fun o' ho' => ?_, fun obj' h => ?_⟩
        · simp only [List.getElem?_set_ne (Ne.symm ho')]
        · simp at h
          subst h
          refine ⟨_, by simp only [List.getElem?_set_self hl]; rfl, fun m' hm' => ?_⟩
          simp only [List.getElem?_set_ne (Ne.symm hm')]
  | stat f k =>
    simp only [Callee.op, Sys.step]
    cases hf : s.statics[f]? with
    | none => exact ⟨rfl, fun _ _ => rfl⟩
    | some sf =>
      refine ⟨rfl, fun f' hf' => ?_⟩
      simp only [List.getElem?_set_ne (Ne.symm hf')]

/-! ## C10: staircases -/

/-- Expectations that accept everything and answer with constants; `vs` is what they will answer. -/
private inductive Stairs : List (Exp V) → List V → Prop
  | nil : Stairs [] []
  | cons {e es vs} (k : Nat) (v : V) : (∀ args, e.accepts args = true) → e.answer = .fn 0 (fun _ _ => v) →
      e.hi = e.attempts + k → Stairs es vs → Stairs (e :: es) (List.replicate k v ++ vs)

private theorem Stairs.done {es : List (Exp V)} (h : Stairs es ([] : List V)) (args : List V) :
    es.findIdx? (·.ready args) = none := by
  generalize hn : ([] : List V) = vs at h
  induction h with
  | nil => rfl
  | @cons e es vs k v ha hf hh hs ih =>
    have h1 : List.replicate k v = [] ∧ vs = [] := by simpa using hn.symm
    have hk : k = 0 := by simpa using h1.1
    rw [List.findIdx?_cons, ih h1.2.symm]
    simp [Exp.ready, ha, hh, hk]

private theorem Stairs.step {es : List (Exp V)} {v : V} {vs : List V} (h : Stairs es (v :: vs)) (args : List V) :
    ∃ i e, es.findIdx? (·.ready args) = some i ∧ es[i]? = some e ∧
      e.answer = .fn 0 (fun _ _ => v) ∧
      Stairs (es.set i { e with attempts := e.attempts + 1, served := e.served ++ [args] }) vs := by
  generalize hn : v :: vs = us at h
  induction h with
  | nil => simp at hn
  | @cons e es us k u ha hf hh hs ih =>
    cases k with
    | zero =>
      obtain ⟨i, e', h1, h2, h3, h4⟩ := ih (by simpa using hn)
      refine ⟨i + 1, e', ?_, by simpa using h2, h3, ?_⟩
      · rw [List.findIdx?_cons, h1]
        have : e.ready args = false := by simp [Exp.ready, hh]
        simp [this]
      · simpa using Stairs.cons 0 u ha hf hh h4
    | succ k =>
      rw [List.replicate_succ, List.cons_append, List.cons.injEq] at hn
      obtain ⟨rfl, rfl⟩ := hn
      refine ⟨0, e, ?_, rfl, hf, ?_⟩
      · rw [List.findIdx?_cons]
        have : e.ready args = true := by simp [Exp.ready, ha, hh]
        simp [this]
      · exact .cons k v ha hf (by simp only [hh]; omega) hs

private theorem stairs_calls (nightly : Bool) (dbg : V → String) (info : FnInfo V) (tid : Nat)
    (calls : List (List V)) (s : State V) (vs : List V) (h : Stairs s.exps vs) (hn : s.exps.length ≠ 1) :
    (State.run nightly dbg info tid (calls.map .call) s).1 =
      calls.mapIdx fun i args =>
        match vs[i]? with
        | some v => .returned (.ok v)
        | none => .returned (.error (.noMatch
            (info.descname ++ "(" ++ ", ".intercalate (args.map dbg) ++ ")"))) := by
  induction calls generalizing s vs with
  | nil => rfl
  | cons args calls ih =>
    simp only [List.map_cons, State.run, State.step, List.mapIdx_cons]
    cases vs with
    | nil =>
      have hnone := h.done args
      have hcall : s.call nightly dbg info tid args = (.error (.noMatch
            (info.descname ++ "(" ++ ", ".intercalate (args.map dbg) ++ ")")), s) := by
        unfold State.call
        simp only [hnone]
        rcases he : s.exps with _ | ⟨e, _ | ⟨e', es⟩⟩
        · rfl
        · simp [he] at hn
        · rfl
      rw [hcall]
      simp only [List.getElem?_nil, List.cons.injEq, true_and]
      rw [ih s [] h hn]
      simp
    | cons v vs =>
      obtain ⟨i, e, h1, h2, h3, h4⟩ := h.step args
      have hcall : ∃ s', s.call nightly dbg info tid args = (.ok v, s') ∧
          s'.exps = s.exps.set i { e with attempts := e.attempts + 1, served := e.served ++ [args] } := by
        unfold State.call
        simp only [h1, h2]
        refine ⟨_, Prod.ext ?_ rfl, rfl⟩
        simp [Exp.reply, h3]
      obtain ⟨s', hs', hx⟩ := hcall
      rw [hs']
      simp only [List.getElem?_cons_zero, List.cons.injEq, true_and]
      rw [ih s' vs (by rw [hx]; exact h4) (by rw [hx, List.length_set]; exact hn)]
      simp

private theorem stairs_expects (nightly : Bool) (dbg : V → String) (info : FnInfo V) (tid : Nat)
    (steps : List (Nat × V)) (s : State V) (rest : List (SOp V)) :
    State.run nightly dbg info tid
      (steps.map (fun p => .expect [.times (.n p.1), .returnConst false p.2]) ++ rest) s =
    let s' : State V := { s with exps := s.exps ++ steps.map (fun p =>
      Exp.make [.times (.n p.1), .returnConst false p.2]) }
    (steps.map (fun _ => .expected (.ok ())) ++ (State.run nightly dbg info tid rest s').1,
      (State.run nightly dbg info tid rest s').2) := by
  induction steps generalizing s with
  | nil => simp
  | cons p steps ih =>
    simp only [List.map_cons, List.cons_append, State.run, State.step]
    rw [ih]
    simp

/-- **C10**: `n ≥ 2` expectations that accept everything, with counts `k1 .. kn` and results `v1 .. vn`:
the first `k1` calls return `v1`, the next `k2` return `v2`, and so on, whatever the arguments; every
call after that panics for want of a matching expectation.  (With `n = 1` this is C01.) -/
theorem C10_staircase (tid : Nat) (nightly : Bool) (dbg : V → String) (info : FnInfo V)
    (hk : info.kind = .static) (steps : List (Nat × V)) (calls : List (List V))
    (hn : steps.length ≠ 1) (hs : ∀ p ∈ steps, p.1 < usizeMax)
    (hl : steps.length + calls.length ≤ usizeMax) (w : World V) (hw : w.runs = []) :
    (MState.run nightly dbg info
      (steps.map (fun p => .expect [.times (.n p.1), .returnConst p.2]) ++
        calls.map (fun args => .call tid args id)) (MState.init w)).1 =
    steps.map (fun _ => .expected (.ok ())) ++
      calls.mapIdx fun i args =>
        match (steps.flatMap fun p => List.replicate p.1 p.2)[i]? with
        | some v => .returned (.ok v)
        | none => .returned (.error (.noMatch
            (info.descname ++ "(" ++ ", ".intercalate (args.map dbg) ++ ")"))) := by
  let ops : List (SOp V) := steps.map (fun p => .expect [.times (.n p.1), .returnConst false p.2]) ++
    calls.map .call
  have hcode : ops.map (SOp.code tid) =
      steps.map (fun p => .expect [.times (.n p.1), .returnConst p.2]) ++
        calls.map (fun args => .call tid args id) := by
    simp [ops, SOp.code, SBuild.code, Function.comp_def]
  have ht : TameOps ops := by
    intro op hop bs hbs b hb a ha
    simp only [ops, List.mem_append, List.mem_map] at hop
    rcases hop with ⟨p, hp, rfl⟩ | ⟨c, hc, rfl⟩
    · simp at hbs; subst hbs; simp at hb
      rcases hb with rfl | rfl
      · simp at ha; subst ha; exact hs p hp
      · simp at ha
    · simp at hbs
  have h := (C06_refinement tid nightly dbg info hk ops ht (by simp [ops]; omega) w hw).1
  rw [hcode] at h
  rw [h]
  simp only [ops]
  rw [stairs_expects]
  simp only [List.nil_append]
  congr 1
  refine stairs_calls nightly dbg info tid calls _ _ ?_ (by simpa using hn)
  simp only
  clear h hcode ht ops hs hl hn
  induction steps with
  | nil => exact .nil
  | cons p steps ih =>
    simp only [List.map_cons, List.flatMap_cons]
    refine .cons p.1 p.2 ?_ ?_ ?_ ih
    · intro args; rfl
    · rfl
    · simp only [Exp.make, lastOf_cons, lastOf_nil, SBuild.window?, window, Option.getD_some,
        Option.getD_none, Nat.zero_add]

/-- Two steps and four calls. -/
example : (MState.run false toString ⟨.static, "f", "f", none⟩
      [.expect [.times (.n 2), .returnConst 7], .expect [.times (.n 1), .returnConst 8],
        .call 0 [1] id, .call 0 [2] id, .call 0 [1] id, .call 0 [1] id]
      (MState.init ⟨fun _ => SeqState.new, 0, [], [], []⟩)).1.map
      (fun | .returned (.ok v) => some v | _ => (none : Option Nat)) =
    [none, none, some 7, some 7, some 8, none] := by decide

/-! ## C11: disjoint expectations can be declared in either order -/

/-- The matchers of the two builder chains accept no common call, and their predicates do not panic. -/
def DisjointChains (A B : List (Build V)) : Prop :=
  ∀ tid args, ∃ x y, verdict tid args A = .ok x ∧
    verdict tid args B = .ok y ∧ ¬ (x = true ∧ y = true)

/-- A chain without `in_sequence`. -/
private theorem builds_noseq {bs : List (Build V)} (h : ∀ b ∈ bs, isInSequence b = false) (e : Expectation V)
    (q q' : Seqs) : (e.builds bs q).2.2 = q ∧ (e.builds bs q).1 = (e.builds bs q').1 ∧
      (e.builds bs q).2.1 = (e.builds bs q').2.1 := by
  induction bs generalizing e with
  | nil => exact ⟨rfl, rfl, rfl⟩
  | cons b bs ih =>
    have hb := h b (List.mem_cons_self ..)
    have h1 : (e.build b q).2.2 = q ∧ (e.build b q).1 = (e.build b q').1 ∧
        (e.build b q).2.1 = (e.build b q').2.1 := by
      cases b <;> simp [isInSequence] at hb <;>
        simp only [Expectation.build, Expectation.setMatcher, Expectation.setStatic] <;>
        (repeat' split) <;> simp_all
    have h2 : (e.build b q').2.2 = q' := by
      cases b <;> simp [isInSequence] at hb <;>
        simp only [Expectation.build, Expectation.setMatcher, Expectation.setStatic] <;>
        (repeat' split) <;> simp_all
    unfold Expectation.builds
    rcases ha : e.build b q with ⟨r, a1, q1⟩
    rcases ha' : e.build b q' with ⟨r', a2, q2⟩
    rw [ha, ha'] at h1
    rw [ha'] at h2
    simp only at h1 h2
    obtain ⟨rfl, rfl, rfl⟩ := h1
    subst h2
    cases r with
    | error p => exact ⟨rfl, rfl, rfl⟩
    | ok u =>
      exact ih (fun x hx => h x (List.mem_cons_of_mem _ hx)) _

/-- **C11**: after any history `pre` of a method (of any kind), declaring `A` and `B`, whose matchers
accept no common call, in either order makes no difference to anything the user can observe in any
later history: results and panics of all calls, and the user closures run.  Other expectations are
arbitrary (they may be in sequences, have panicking predicates, and overlap with `A` and `B`). -/
theorem C11_swap (nightly : Bool) (dbg : V → String) (info : FnInfo V) (pre post : List (MOp V))
    (A B : List (Build V)) (hd : DisjointChains A B)
    (hseq : ∀ b ∈ A ++ B, isInSequence b = false) (w : World V)
    (hA : ((Expectation.new nightly info 0).builds A w.seqs).1 = .ok ())
    (hB : ((Expectation.new nightly info 0).builds B w.seqs).1 = .ok ()) :
    let o := MState.run nightly dbg info (pre ++ [.expect A, .expect B] ++ post) (MState.init w)
    let o' := MState.run nightly dbg info (pre ++ [.expect B, .expect A] ++ post) (MState.init w)
    o.1 = o'.1 ∧ o.2.world.runs = o'.2.world.runs := by
  intro o o'
  simp only [o, o', MState.run_append]
  generalize hs : (MState.run nightly dbg info pre (MState.init w)).2 = s
  obtain ⟨es, u⟩ := s
  have hsA : ∀ b ∈ A, isInSequence b = false := fun b hb => hseq b (List.mem_append_left _ hb)
  have hsB : ∀ b ∈ B, isInSequence b = false := fun b hb => hseq b (List.mem_append_right _ hb)
  -- what building gives, for any ordinal and any state of the sequences
  have key : ∀ (C : List (Build V)), (∀ b ∈ C, isInSequence b = false) →
      ((Expectation.new nightly info 0).builds C w.seqs).1 = .ok () → ∀ g q, ∃ e : Expectation V,
        (Expectation.new nightly info g).builds C q = (.ok (), e, q) ∧ e.common.mpoison = false ∧
        e.common.matcher = lastOf matcherOf .always C := by
    intro C hC hok g q
    have hsim : Expectation.Sim id (Expectation.new nightly info 0) (Expectation.new nightly info g) :=
      ⟨rfl, rfl, rfl, rfl, fun _ _ => rfl, rfl⟩
    obtain ⟨h1, _, _⟩ := hsim.builds (ChainSim.refl id C) w.seqs
    obtain ⟨_, h4, _⟩ := builds_noseq hC (Expectation.new nightly info g) w.seqs q
    obtain ⟨h6, _, _⟩ := builds_noseq hC (Expectation.new nightly info g) q w.seqs
    have hcfg := (Cfg.new nightly info g).builds q C
    rcases hb : (Expectation.new nightly info g).builds C q with ⟨r, e, q2⟩
    rw [hb] at h4 h6 hcfg
    rw [h1, h4] at hok
    simp only at hok h6 hcfg
    subst hok h6
    refine ⟨e, rfl, hcfg.poison, ?_⟩
    have hch := Expectation.builds_chain hb
    rw [hcfg.matcher, hch]
    simp [Expectation.new]
  have simg : ∀ (C : List (Build V)) g g' q e e', (Expectation.new nightly info g).builds C q = (.ok (), e, q) →
      (Expectation.new nightly info g').builds C q = (.ok (), e', q) → Expectation.Sim id e e' := by
    intro C g g' q e e' h1 h2
    have hsim : Expectation.Sim id (Expectation.new nightly info g) (Expectation.new nightly info g') :=
      ⟨rfl, rfl, rfl, rfl, fun _ _ => rfl, rfl⟩
    have := (hsim.builds (ChainSim.refl id C) q).2.1
    rw [h1, h2] at this
    exact this
  obtain ⟨a, ha, hpa, hma⟩ := key A hsA hA u.fresh u.seqs
  obtain ⟨b, hb, hpb, hmb⟩ := key B hsB hB (u.fresh + 1) u.seqs
  obtain ⟨b', hb', _, _⟩ := key B hsB hB u.fresh u.seqs
  obtain ⟨a', ha', _, _⟩ := key A hsA hA (u.fresh + 1) u.seqs
  have hsw : Swapped id (es ++ [a] ++ [b]) (es ++ [b'] ++ [a']) := by
    rw [List.append_assoc, List.append_assoc]
    refine (AllSim.refl id es).appendSwapped (.here (simg A _ _ _ _ _ ha ha') (simg B _ _ _ _ _ hb hb') ?_ hpa hpb .nil)
    intro tid args
    obtain ⟨x, y, h1, h2, h3⟩ := hd tid args
    refine ⟨x, y, by rw [hma, verdict_matches]; exact h1, by rw [hmb, verdict_matches]; exact h2, ?_⟩
    cases x <;> cases y <;> simp_all
  have hrun := run_related (er := id) (R := Swapped id) Swapped.length
    (fun cx info args n _ _ _ _ h hw => h.scan cx info args n hw)
    (fun h hx => h.append (.cons hx .nil)) nightly dbg info (OpsSim.refl id post) hsw
    (w := { u with fresh := u.fresh + 1 + 1, made := u.made ++ [a.chain] ++ [b.chain] })
    (w' := { u with fresh := u.fresh + 1 + 1, made := u.made ++ [b'.chain] ++ [a'.chain] }) ⟨rfl, rfl⟩
  have e1 : MState.run nightly dbg info [.expect A, .expect B] ⟨es, u⟩ =
      ([.expected (.ok ()), .expected (.ok ())], ⟨es ++ [a] ++ [b], { u with fresh := u.fresh + 1 + 1, made := u.made ++ [a.chain] ++ [b.chain] }⟩) := by
    simp [MState.run, MState.step, Expectations.expect, ha, hb]
  have e2 : MState.run nightly dbg info [.expect B, .expect A] ⟨es, u⟩ =
      ([.expected (.ok ()), .expected (.ok ())], ⟨es ++ [b'] ++ [a'], { u with fresh := u.fresh + 1 + 1, made := u.made ++ [b'.chain] ++ [a'.chain] }⟩) := by
    simp [MState.run, MState.step, Expectations.expect, ha', hb']
  rw [e1, e2]
  refine ⟨?_, hrun.2.1⟩
  congr 1
  have := hrun.1
  rw [show (MObs.mapDescr id : MObs V → MObs V) = id from funext MObs.mapDescr_id] at this
  simpa using this

/-- Matchers for 1 and 2 are disjoint, and both chains complete. -/
example : DisjointChains (V := Nat) [.withf fun as => .ok (as == [1]), .returnConst 1]
      [.times (.n 1), .with [⟨fun v => .ok (v == 2), "2"⟩], .returnConst 2] := by
  intro tid args
  refine ⟨args == [1], (match args with | a :: _ => a == 2 | [] => true), rfl, ?_, ?_⟩
  · rcases args with _ | ⟨a, as⟩
    · rfl
    · simp [verdict, decision, lastOf_cons, lastOf_nil, bind, Except.bind, pure, Except.pure]
  · rcases args with _ | ⟨a, as⟩ <;> simp
    intro h _; omega

/-! ## C12: `with` -/

/-- **C12**: `with(p1 .. pn)` accepts a call iff every `pi` accepts the `i`-th argument. -/
theorem C12_conjunction (tid : Nat) (ps : List (Pred V)) (args : List V) (fs : List (V → Bool))
    (hl : ps.length = args.length) (hfs : fs.length = ps.length)
    (hp : ∀ i (h : i < ps.length) (hf : i < fs.length) v, ps[i].eval v = .ok (fs[i] v)) :
    ∃ b, (Matcher.pred ps).matches tid args = .ok b ∧
      (b = true ↔ ∀ i (h : i < args.length) (hf : i < fs.length), fs[i] args[i] = true) := by
  have key : ∀ (ps : List (Pred V)) (fs : List (V → Bool)) (args : List V), ps.length = args.length →
      fs.length = ps.length →
      (∀ i (h : i < ps.length) (hf : i < fs.length) v, ps[i].eval v = .ok (fs[i] v)) →
      ∃ bs, evalAll ps args = .ok bs ∧
        (bs.all id = true ↔ ∀ i (h : i < args.length) (hf : i < fs.length), fs[i] args[i] = true) := by
    intro ps
    induction ps with
    | nil =>
      intro fs args hl hfs _
      refine ⟨[], by simp [evalAll], ?_⟩
      simp at hl hfs
      subst hfs
      simp
    | cons p ps ih =>
      intro fs args hl hfs hp
      cases args with
      | nil => simp at hl
      | cons a args =>
        cases fs with
        | nil => simp at hfs
        | cons f fs =>
          obtain ⟨bs, h1, h2⟩ := ih fs args (by simpa using hl) (by simpa using hfs)
            (fun i h hf v => hp (i + 1) (Nat.succ_lt_succ h) (Nat.succ_lt_succ hf) v)
          have h0 := hp 0 (by simp) (by simp) a
          simp at h0
          refine ⟨f a :: bs, by simp [evalAll, h0, h1, bind, Except.bind, pure, Except.pure], ?_⟩
          rw [List.all_cons, Bool.and_eq_true, h2]
          constructor
          · rintro ⟨ha, hr⟩ i h hf
            cases i with
            | zero => exact ha
            | succ i => simpa using hr i (by simpa using h) (by simpa using hf)
          · intro h
            refine ⟨h 0 (by simp) (by simp), fun i hi hf => ?_⟩
            exact h (i + 1) (Nat.succ_lt_succ hi) (Nat.succ_lt_succ hf)
  obtain ⟨bs, h1, h2⟩ := key ps fs args hl hfs hp
  exact ⟨bs.all id, by simp [Matcher.matches, h1, bind, Except.bind, pure, Except.pure], h2⟩

/-- **C12**: predicate number `i` is only ever asked about argument number `i`: predicates that agree
there give the same answer (or the same panic). -/
theorem C12_own_argument (tid : Nat) (ps qs : List (Pred V)) (args : List V) (hl : ps.length = qs.length)
    (h : ∀ i (h : i < ps.length) (h' : i < qs.length) (ha : i < args.length),
      ps[i].eval args[i] = qs[i].eval args[i]) :
    (Matcher.pred ps).matches tid args = (Matcher.pred qs).matches tid args := by
  have key : ∀ (ps qs : List (Pred V)) (args : List V), ps.length = qs.length →
      (∀ i (h : i < ps.length) (h' : i < qs.length) (ha : i < args.length),
        ps[i].eval args[i] = qs[i].eval args[i]) → evalAll ps args = evalAll qs args := by
    intro ps
    induction ps with
    | nil =>
      intro qs args hl _
      simp at hl
      have : qs = [] := List.length_eq_zero_iff.mp hl.symm
      subst this; rfl
    | cons p ps ih =>
      intro qs args hl h
      cases qs with
      | nil => simp at hl
      | cons q qs =>
        cases args with
        | nil => rfl
        | cons a args =>
          have h0 := h 0 (by simp) (by simp) (by simp)
          simp at h0
          have := ih qs args (by simpa using hl) (fun i h1 h2 h3 => 
            h (i + 1) (Nat.succ_lt_succ h1) (Nat.succ_lt_succ h2) (Nat.succ_lt_succ h3))
          simp only [evalAll, h0, this]
  simp only [Matcher.matches, key ps qs args hl h]

/-- **C12**: without arguments, `with()` accepts every call. -/
theorem C12_nullary (tid : Nat) (args : List V) : (Matcher.pred ([] : List (Pred V))).matches tid args = .ok true := by
  simp [Matcher.matches, evalAll, bind, Except.bind, pure, Except.pure]

/-- **C12**: a panic of a predicate is the outcome, whatever the other predicates say: the outcome is
a panic iff some predicate panics on its argument, and it is the panic of the first such one. -/
theorem C12_panic (tid : Nat) (ps : List (Pred V)) (args : List V) (hl : ps.length = args.length) (p : Panic) :
    (Matcher.pred ps).matches tid args = .error p ↔
      ∃ i, ∃ (h : i < ps.length) (h' : i < args.length), ps[i].eval args[i] = .error p ∧
        ∀ j (hj : j < i), ∃ b, ps[j].eval args[j] = .ok b := by
  have key : ∀ (ps : List (Pred V)) (args : List V), ps.length = args.length →
      (evalAll ps args = .error p ↔ ∃ i, ∃ (h : i < ps.length) (h' : i < args.length),
        ps[i].eval args[i] = .error p ∧ ∀ j (hj : j < i), ∃ b, ps[j].eval args[j] = .ok b) := by
    intro ps
    induction ps with
    | nil => intro args _; simp [evalAll]
    | cons q ps ih =>
      intro args hl
      cases args with
      | nil => simp at hl
      | cons a args =>
        have ih := ih args (by simpa using hl)
        simp only [evalAll]
        cases hq : q.eval a with
        | error p' =>
          simp only [bind, Except.bind]
          constructor
          · intro h
            simp at h; subst h
            exact ⟨0, by simp, by simp, by simpa using hq, fun j hj => by omega⟩
          · rintro ⟨i, h1, h2, h3, h4⟩
            cases i with
            | zero => simp [hq] at h3; rw [h3]
            | succ i =>
              obtain ⟨b, hb⟩ := h4 0 (by omega)
              simp [hq] at hb
        | ok b =>
          simp only [bind, Except.bind, pure, Except.pure]
          refine Iff.trans (b := evalAll ps args = .error p) (by cases evalAll ps args <;> simp) ?_
          rw [ih]
          constructor
          · rintro ⟨i, h1, h2, h3, h4⟩
            refine ⟨i + 1, by simpa using h1, by simpa using h2, by simpa using h3, fun j hj => ?_⟩
            cases j with
            | zero => exact ⟨b, by simpa using hq⟩
            | succ j => exact h4 j (by omega)
          · rintro ⟨i, h1, h2, h3, h4⟩
            cases i with
            | zero => simp [hq] at h3
            | succ i =>
              refine ⟨i, by simpa using h1, by simpa using h2, by simpa using h3, fun j hj => ?_⟩
              exact h4 (j + 1) (by omega)
  rw [← key ps args hl]
  simp only [Matcher.matches]
  cases evalAll ps args <;> simp [bind, Except.bind, pure, Except.pure]

/-- Replace every `with(p1 .. pn)` by `withf` with the conjunction of the `pi`. -/
def withAsWithf : Build V → Build V
  | .with ps => .withf fun args => (Matcher.pred ps).matches 0 args
  | b => b

/-- **C12**: using `withf` with the conjunction instead of `with`, in any expectations of any history,
changes nothing but the description of the matcher in panic messages. -/
theorem C12_withf (nightly : Bool) (dbg : V → String) (info : FnInfo V) (ops : List (MOp V)) (w : World V) :
    let f : MOp V → MOp V
      | .expect bs => .expect (bs.map withAsWithf)
      | op => op
    let o := MState.run nightly dbg info ops (MState.init w)
    let o' := MState.run nightly dbg info (ops.map f) (MState.init w)
    o.1.map (MObs.mapDescr fun _ => "") = o'.1.map (MObs.mapDescr fun _ => "") ∧
    o.2.world.runs = o'.2.world.runs := by
  intro f o o'
  have hops : OpsSim (fun _ => "") ops (ops.map f) := by
    clear o o'
    induction ops with
    | nil => exact .nil
    | cons op ops ih =>
      refine .cons ?_ ih
      cases op with
      | call t a u => exact .call t a u
      | expect bs =>
        refine .expect ?_
        clear ih
        induction bs with
        | nil => exact .nil
        | cons b bs ih' =>
          refine .cons ?_ ih'
          cases b with
          | «with» ps =>
            refine .matcher (m := .pred ps) (m' := .func fun args => (Matcher.pred ps).matches 0 args)
              rfl rfl (fun tid args => ?_) rfl
            simp [Matcher.matches]
          | _ => exact .refl _
  have := run_related (er := fun _ => "") (R := AllSim fun _ => "") AllSim.length
    (fun cx info args n _ _ _ _ h hw => h.scan cx info args n hw)
    (fun h hx => h.append (.cons hx .nil)) nightly dbg info hops (AllSim.nil) (World.Sim.refl w)
  exact ⟨this.1, this.2.1⟩

/-- Predicates on two arguments. -/
example : (Matcher.pred [⟨fun v => .ok (v == 1), "1"⟩, ⟨fun v => .ok (v < 5), "< 5"⟩]).matches 0 [1, 4] = .ok true ∧
    (Matcher.pred [⟨fun v => .ok (v == 1), "1"⟩, ⟨fun v => .ok (v < 5), "< 5"⟩]).matches 0 [4, 1] = .ok false ∧
    (Matcher.pred [⟨fun v => .ok (v == 1), "1"⟩, ⟨fun _ => .error (.user "x"), ""⟩]).matches 0 [4, 1] =
      .error (.user "x") := by
  decide

end Mockall.Props
