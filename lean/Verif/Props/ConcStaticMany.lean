import Verif.Lemmas.ConcStaticMany
import Verif.Lemmas.ConcStaticNested
import Verif.Props.Sequence
import Verif.Props.ConcStatic

/-! # Static methods that share sequences, used concurrently (C89) -/

namespace Mockall.Props

open Spec Spec.Many

variable {V : Type}

theorem program_eq (s : ManyState V) (lin : List Nat) : Spec.Many.program s lin = s.program lin := by
  unfold Spec.Many.program ManyState.program
  congr 1

/-- A step keeps what the operation is, whose it is, and that it is over. -/
theorem act_step_keeps (env : Env V) (id : Nat) (act act' : SAct V) (s s' : SState V) (hid : s.acts[id]? = some act)
    (h : act.step env id s = some s') (h' : s'.acts[id]? = some act') :
    act'.tid = act.tid ∧ act'.op = act.op ∧ act.finished = false := by
  have hlt := (List.getElem?_eq_some_iff.mp hid).1
  obtain ⟨tid, op, pc⟩ := act
  cases pc <;> simp only [SAct.step] at h
  all_goals repeat' split at h
  all_goals first
    | (simp at h; done)
    | (simp only [Option.some.injEq] at h; subst h; simp only [List.getElem?_set_self hlt] at h'; cases h'
       exact ⟨rfl, rfl, rfl⟩)

/-- Threads do one operation at a time. -/
theorem one_at_a_time (env : Env V) (owner : Nat → Nat) (s : ManyState V) (sch : List (ManySched V))
    (hsch : ∀ a ∈ sch, Owned owner a) (hs : s.acts = []) :
    (∀ (i j : Nat) (x y : TAct V), (s.run env sch).acts[i]? = some x → (s.run env sch).acts[j]? = some y →
      x.finished = false → y.finished = false → x.act.tid = y.act.tid → i = j) ∧
    ∀ x ∈ (s.run env sch).acts, ∀ sid, Joining x sid → owner sid = x.act.tid := by
  induction sch using snoc_induct with
  | nil => simp [ManyState.run, hs]
  | snoc sch a ih =>
    obtain ⟨ih1, ih2⟩ := ih fun a ha => hsch a (by simp [ha])
    have hrun : s.run env (sch ++ [a]) = (s.run env sch).step env a := by simp [ManyState.run]
    rw [hrun]
    generalize s.run env sch = s' at ih1 ih2
    have ha := hsch a (by simp)
    cases a with
    | start tid f op =>
      simp only [ManyState.step]
      split
      · rename_i hc
        simp only [Bool.and_eq_true, decide_eq_true_eq, List.all_eq_true, Bool.or_eq_true] at hc
        have hcase : ∀ (j : Nat) (y : TAct V), (s'.acts ++ [⟨f, ⟨tid, op, op.start⟩⟩])[j]? = some y →
            s'.acts[j]? = some y ∨ (j = s'.acts.length ∧ y = ⟨f, ⟨tid, op, op.start⟩⟩) := by
          intro j y hj
          rcases Nat.lt_trichotomy j s'.acts.length with hlt | heq | hgt
          · rw [List.getElem?_append_left hlt] at hj; exact .inl hj
          · subst heq
            rw [List.getElem?_append_right (Nat.le_refl _)] at hj
            simp at hj
            exact .inr ⟨rfl, hj.symm⟩
          · rw [List.getElem?_eq_none (by simp; omega)] at hj
            simp at hj
        have hold : ∀ (j : Nat) (y : TAct V), s'.acts[j]? = some y → y.finished = false → y.act.tid ≠ tid := by
          intro j y hj hf e
          rcases hc.2 y (List.mem_of_getElem? hj) with h | h
          · rw [hf] at h; simp at h
          · simp [e] at h
        constructor
        · intro i j x y hi hj hxf hyf ht
          rcases hcase i x hi with hi | ⟨rfl, rfl⟩
          · rcases hcase j y hj with hj | ⟨rfl, rfl⟩
            · exact ih1 i j x y hi hj hxf hyf ht
            · exact absurd ht (hold i x hi hxf)
          · rcases hcase j y hj with hj | ⟨rfl, _⟩
            · exact absurd ht.symm (hold j y hj hyf)
            · rfl
        · intro x hx sid hs
          rcases List.mem_append.mp hx with hx | hx
          · exact ih2 x hx sid hs
          · simp at hx
            subst hx
            obtain ⟨k, bs, e, hm⟩ := hs
            simp only at e
            subst e
            exact ha sid hm
      · exact ⟨ih1, ih2⟩
    | step id =>
      simp only [ManyState.step]
      rcases hid : s'.acts[id]? with _ | x
      · exact ⟨ih1, ih2⟩
      · have hlt := (List.getElem?_eq_some_iff.mp hid).1
        simp only
        rcases hst : s'.stepAct env id x with _ | t
        · exact ⟨ih1, ih2⟩
        · simp only [Option.getD_some]
          unfold ManyState.stepAct at hst
          split at hst
          · cases hst
          · simp only [Option.map_eq_some_iff] at hst
            obtain ⟨u, hu, rfl⟩ := hst
            have hact : ∃ act', u.acts[id]? = some act' ∧ act'.tid = x.act.tid ∧ act'.op = x.act.op ∧
                x.act.finished = false := by
              have hlen : id < u.acts.length := by
                have : u.acts.length = (s'.acts.map TAct.act).length := by
                  clear ih1 ih2
                  generalize x.act = act at hu
                  obtain ⟨tid, op, pc⟩ := act
                  cases pc <;> simp only [SAct.step] at hu
                  all_goals repeat' split at hu
                  all_goals first
                    | (simp at hu; done)
                    | (simp only [Option.some.injEq] at hu; subst hu; simp)
                rw [this]; simpa using hlt
              refine ⟨u.acts[id], List.getElem?_eq_getElem hlen, ?_⟩
              exact act_step_keeps env id x.act _ _ u (by simp [hid]) hu (List.getElem?_eq_getElem hlen)
            obtain ⟨act', h1, h2, h3, h4⟩ := hact
            simp only [h1, Option.getD_some]
            have hget : ∀ (j : Nat) (y : TAct V), (s'.acts.set id ⟨x.fn, act'⟩)[j]? = some y →
                ∃ y0, s'.acts[j]? = some y0 ∧ y.act.tid = y0.act.tid ∧ (y.finished = false → y0.finished = false) := by
              intro j y hj
              by_cases hji : j = id
              · subst hji
                rw [List.getElem?_set_self hlt] at hj
                cases hj
                exact ⟨x, hid, h2, fun _ => h4⟩
              · rw [List.getElem?_set_ne (Ne.symm hji)] at hj
                exact ⟨y, hj, rfl, fun h => h⟩
            constructor
            · intro i j y z hi hj hyf hzf ht
              obtain ⟨y0, hy0, e1, f1⟩ := hget i y hi
              obtain ⟨z0, hz0, e2, f2⟩ := hget j z hj
              exact ih1 i j y0 z0 hy0 hz0 (f1 hyf) (f2 hzf) (by rw [← e1, ← e2]; exact ht)
            · intro y hy sid hs
              rcases List.mem_or_eq_of_mem_set hy with hy | rfl
              · exact ih2 y hy sid hs
              · simp only [h2]
                refine ih2 x (List.mem_of_getElem? hid) sid ?_
                obtain ⟨k, bs, e, hm⟩ := hs
                exact ⟨k, bs, by rw [← h3]; exact e, hm⟩

/-- **C89**, the condition on sequences holds if only one thread adds to each of them, whatever the schedule. -/
theorem C89_owned (env : Env V) (s0 : Sys V) (sch : List (ManySched V)) (owner : Nat → Nat)
    (hsch : ∀ a ∈ sch, Owned owner a) (pre post : List (ManySched V)) (hp : sch = pre ++ post) :
    Exclusive ((ManyState.rest s0).run env pre) := by
  obtain ⟨h1, h2⟩ := one_at_a_time env owner (ManyState.rest s0) pre
    (fun a ha => hsch a (by rw [hp]; simp [ha])) rfl
  intro sid i j x y hi hj hxf hyf hx hy
  refine h1 i j x y hi hj hxf hyf ?_
  rw [← h2 x (List.mem_of_getElem? hi) sid hx, ← h2 y (List.mem_of_getElem? hj) sid hy]

/-- **C89**: from any state that a program can reach, any number of threads call any number of static methods, set
expectations on them, checkpoint them and drop `Context`s of them, under any schedule.  The methods may have
expectations in the same sequences, which no mutex protects; threads may also add expectations to sequences, as long as
no two statements that are executed at the same time add to the same one.  Then there is an order `lin` of operations
such that the sequential program that does them one after the other in this order
* has every operation that is over, and gives it the same outcome;
* has an operation that was over before another one began before that one;
* brings the sequences to the same place and dispatches the same calls to the same expectations in the same order;
* leaves the same number of expectations in each sequence that no statement is just adding to;
* ends with the same static methods, if all operations are over, and leaves the objects alone. -/
theorem C89_linearisable (env : Env V) (sts : List (MethodInfo V)) (before : List (Op V)) (sch : List (ManySched V))
    (hsch : ∀ a ∈ sch, Allowed a)
    (hx : ∀ pre post, sch = pre ++ post →
      Exclusive ((ManyState.rest (Sys.run env before (Sys.init sts)).2).run env pre)) :
    let s0 := (Sys.run env before (Sys.init sts)).2
    let s := (ManyState.rest s0).run env sch
    ∃ lin : List Nat, lin.Nodup ∧ (∀ id ∈ lin, id < s.acts.length) ∧
      (∀ (id : Nat) (x : TAct V) (o : Obs V), s.acts[id]? = some x → x.act.pc = .done o →
        ∃ n : Nat, lin[n]? = some id ∧ (program s lin)[n]? = some (operation x) ∧
          (Sys.run env (program s lin) s0).1[n]? = some o) ∧
      (∀ (pre post : List (ManySched V)) (a b : Nat) (x : TAct V), sch = pre ++ post →
        ((ManyState.rest s0).run env pre).acts[a]? = some x → x.finished = true →
        ((ManyState.rest s0).run env pre).acts.length ≤ b → b ∈ lin → Before lin a b) ∧
      (∀ sid, ((Sys.run env (program s lin) s0).2.world.seqs sid).level = (s.world.seqs sid).level) ∧
      (∀ sid, (∀ x ∈ s.acts, Joining x sid → x.finished = true) →
        (Sys.run env (program s lin) s0).2.world.seqs sid = s.world.seqs sid) ∧
      (Sys.run env (program s lin) s0).2.world.log = s.world.log ∧
      (Sys.run env (program s lin) s0).2.objs = s0.objs ∧
      ((∀ x ∈ s.acts, x.finished = true) → (Sys.run env (program s lin) s0).2.statics = s.statics) := by
  intro s0 s
  obtain ⟨hb0, h0⟩ := many_init env sts before
  obtain ⟨hb, lin, outs, σ, h, hpre⟩ := many_run sch hsch hx hb0 h0
  change ManyBase s at hb
  change ManyLin env s0 s lin outs σ at h
  have hrun : Sys.run env (program s lin) s0 = (outs, σ) := by rw [program_eq]; exact h.run
  have hnot : ∀ (id : Nat) (x : TAct V), s.acts[id]? = some x → x.finished = true → s.held x.fn ≠ some id := by
    intro id x hid hfin e
    have hin := (hb.holder id x hid).mpr e
    obtain ⟨fn, tid, op, pc⟩ := x
    cases pc <;> simp [SPc.inside, SPc.working, TAct.finished, SAct.finished] at hin hfin
  refine ⟨lin, ?_⟩
  rw [hrun]
  refine ⟨h.nodup, h.range, ?_, ?_, h.alike.level, ?_, h.alike.log, h.objs, ?_⟩
  · intro id x o hid hpc
    have hfin : x.finished = true := by simp [TAct.finished, SAct.finished, hpc]
    have hmem : id ∈ lin := (h.took id x hid).mpr (by rw [hpc]; rfl)
    obtain ⟨n, hn⟩ := List.getElem?_of_mem hmem
    refine ⟨n, hn, ?_, ?_⟩
    · have hfm : program s lin = lin.map fun id => ((s.acts[id]?).map operation).getD (.mcheckpoint []) := by
        have := h.range
        clear hmem hn hrun h hpre
        induction lin with
        | nil => rfl
        | cons j l ih =>
          have hj := this j (by simp)
          simp only [program, List.filterMap_cons, List.map_cons]
          rw [List.getElem?_eq_getElem hj]
          simp only [Option.map_some, Option.getD_some, List.cons.injEq, true_and]
          exact ih fun i hi => this i (by simp [hi])
      rw [hfm, List.getElem?_map, hn]
      simp [hid]
    · have hfl := (hb.fine x (List.mem_of_getElem? hid)).1
      have := congrArg (·[n]?) h.obs
      simp only [List.getElem?_map, hn, Option.map_some, ManyState.foreseen, hid, List.getElem?_eq_getElem hfl,
        if_neg (hnot id x hid hfin), SAct.outcome, hpc] at this
      rcases hx : outs[n]? with _ | y
      · rw [hx] at this; simp at this
      · rw [hx] at this
        simp at this
        rw [this]
  · intro pre post a b x hsp ha hfin hb hbl
    obtain ⟨lin1, ext, outs1, σ1, hl, h1⟩ := hpre pre post hsp
    have ha1 : a ∈ lin1 := (h1.took a x ha).mpr (by
      obtain ⟨fn, tid, op, pc⟩ := x
      cases pc <;> first | rfl | simp [TAct.finished, SAct.finished] at hfin)
    have hb1 : b ∉ lin1 := fun h => by
      have := h1.range b h
      have hb' : (ManyState.run env pre (ManyState.rest s0)).acts.length ≤ b := hb
      exact absurd this (Nat.not_lt.mpr hb')
    have hb2 : b ∈ ext := by
      rw [hl] at hbl
      exact (List.mem_append.mp hbl).resolve_left hb1
    obtain ⟨x1, y1, h2⟩ := List.append_of_mem ha1
    obtain ⟨x2, y2, h3⟩ := List.append_of_mem hb2
    exact ⟨x1, y1 ++ x2, y2, by rw [hl, h2, h3]; simp⟩
  · intro sid hno
    have h1 := h.alike.level sid
    have h2 := h.same sid fun j y hj hs => by
      have hy := (hb.fine y (List.mem_of_getElem? hj)).2.joining hs
      have := hno y (List.mem_of_getElem? hj) hy.1
      rw [hy.2] at this
      simp at this
    simp only [World.joined] at h2
    generalize σ.world.seqs sid = a at h1 h2
    generalize s.world.seqs sid = b at h1 h2
    obtain ⟨a1, a2⟩ := a
    obtain ⟨b1, b2⟩ := b
    simp only at h1 h2
    rw [h1, h2]
  · intro hall
    apply List.ext_getElem?
    intro f
    rcases hf : s.statics[f]? with _ | sf
    · rw [List.getElem?_eq_none_iff] at hf ⊢
      rw [h.len]; exact hf
    · obtain ⟨σf, h1, h2⟩ := h.shadow f sf hf
      have hfree : s.holding f = none := by
        rcases hh : s.held f with _ | j
        · simp [ManyState.holding, hh]
        · exfalso
          obtain ⟨x, hx, hxf⟩ := hb.held f j hh
          exact hnot j x hx (hall x (List.mem_of_getElem? hx)) (by rw [hxf]; exact hh)
      rw [hfree] at h2
      rw [h1, show σf = sf from h2]

/-- Who holds the mutexes. -/
structure Live (s : ManyState V) : Prop where
  fine : ∀ x ∈ s.acts, x.fn < s.statics.length
  held : ∀ f h : Nat, s.held f = some h → ∃ x : TAct V, s.acts[h]? = some x ∧ x.fn = f ∧ x.act.pc.inside = true
  holder : ∀ (id : Nat) (x : TAct V), s.acts[id]? = some x → x.act.pc.inside = true → s.held x.fn = some id

theorem Live.step {env : Env V} {s : ManyState V} (h : Live s) (a : ManySched V) : Live (s.step env a) := by
  cases a with
  | start tid f op =>
    simp only [ManyState.step]
    split
    · rename_i hc
      simp only [Bool.and_eq_true, decide_eq_true_eq] at hc
      have hnew : (op.start : SPc V).inside = false := by cases op <;> rfl
      refine ⟨fun x hx => ?_, fun g k hg => ?_, fun id x hx hin => ?_⟩
      · rcases List.mem_append.1 hx with hx | hx
        · exact h.fine x hx
        · rw [List.mem_singleton.1 hx]; exact hc.1
      · obtain ⟨x, hx, e⟩ := h.held g k hg
        exact ⟨x, by rw [List.getElem?_append_left (List.getElem?_eq_some_iff.1 hx).1]; exact hx, e⟩
      · dsimp only at hx ⊢
        rw [List.getElem?_append] at hx
        split at hx
        · exact h.holder id x hx hin
        · have e := List.mem_singleton.1 (List.mem_of_getElem? hx)
          rw [e, hnew] at hin
          cases hin
    · exact h
  | step id =>
    simp only [ManyState.step]
    rcases hx : s.acts[id]? with _ | x
    · exact h
    rcases hs : s.stepAct env id x with _ | s'
    · simpa [hs] using h
    simp only [hs, Option.getD_some]
    have hfn := h.fine x (List.mem_of_getElem? hx)
    simp only [ManyState.stepAct, List.getElem?_eq_getElem hfn, Option.map_eq_some_iff] at hs
    obtain ⟨t, ht, rfl⟩ := hs
    obtain ⟨pc, ha, -, -, hin, hout, -⟩ := SAct.step_shape ht
    dsimp only at ha hin hout
    have hlt := (List.getElem?_eq_some_iff.1 hx).1
    have hact : (t.acts[id]?).getD x.act = { x.act with pc := pc } := by
      rw [ha, List.getElem?_set_self (by simpa using hlt)]; rfl
    have hget : ∀ j : Nat, (s.acts.set id { x with act := (t.acts[id]?).getD x.act })[j]? =
        if j = id then some { x with act := { x.act with pc := pc } } else s.acts[j]? := by
      intro j
      rw [hact]
      by_cases hj : j = id
      · rw [if_pos hj, hj, List.getElem?_set_self hlt]
      · rw [if_neg hj, List.getElem?_set_ne (Ne.symm hj)]
    refine ⟨fun y hy => ?_, fun g k hg => ?_, fun j y hj hyin => ?_⟩
    · simp only [List.length_set]
      rcases List.mem_or_eq_of_mem_set hy with hy | rfl
      · exact h.fine y hy
      · exact hfn
    · dsimp only at hg ⊢
      rw [hget]
      by_cases hgf : g = x.fn
      · rw [if_pos hgf] at hg
        cases hpi : x.act.pc.inside with
        | true =>
          have hh := h.holder id x hx hpi
          rw [hin hpi] at hg
          split at hg
          · rename_i hpc
            rw [hh] at hg
            cases hg
            exact ⟨_, if_pos rfl, hgf.symm, hpc⟩
          · cases hg
        | false =>
          obtain ⟨e, hnone⟩ := hout hpi
          rw [e] at hg
          split at hg
          · rename_i hpc
            cases hg
            exact ⟨_, if_pos rfl, hgf.symm, hpc⟩
          · obtain ⟨y, hy, hyf, hyi⟩ := h.held x.fn k hg
            refine ⟨y, ?_, hgf ▸ hyf, hyi⟩
            rw [if_neg]
            · exact hy
            · rintro rfl
              rw [hx] at hy
              cases hy
              rw [hpi] at hyi
              cases hyi
      · rw [if_neg hgf] at hg
        obtain ⟨y, hy, hyf, hyi⟩ := h.held g k hg
        refine ⟨y, ?_, hyf, hyi⟩
        rw [if_neg]
        · exact hy
        · rintro rfl
          rw [hx] at hy
          cases hy
          exact hgf hyf.symm
    · dsimp only at hj ⊢
      rw [hget] at hj
      split at hj
      · rename_i e
        subst e
        cases hj
        dsimp only at hyin ⊢
        rw [if_pos rfl]
        cases hpi : x.act.pc.inside with
        | true => rw [hin hpi, if_pos hyin]; exact h.holder j x hx hpi
        | false => rw [(hout hpi).1, if_pos hyin]
      · rename_i hne
        have hh := h.holder j y hj hyin
        split
        · rename_i e
          rw [e] at hh
          cases hpi : x.act.pc.inside with
          | true =>
            have := h.holder id x hx hpi
            rw [hh] at this
            cases this
            exact absurd rfl hne
          | false =>
            obtain ⟨e', hnone⟩ := hout hpi
            rw [e']
            split
            · rename_i hpc
              rw [hnone hpc] at hh
              cases hh
            · exact hh
        · exact hh

theorem live_run (env : Env V) (s0 : Sys V) (sch : List (ManySched V)) : Live ((ManyState.rest s0).run env sch) := by
  induction sch using snoc_induct with
  | nil => exact ⟨by simp [ManyState.run, ManyState.rest], by simp [ManyState.run, ManyState.rest],
      by simp [ManyState.run, ManyState.rest]⟩
  | snoc sch a ih =>
    rw [ManyState.run, List.foldl_append]
    exact ih.step a

/-- **C89**, progress, whatever the threads do: while some operation is not over, some operation that is not over can
make a step. -/
theorem C89_progress (env : Env V) (s0 : Sys V) (sch : List (ManySched V)) :
    let s := (ManyState.rest s0).run env sch
    (∃ x ∈ s.acts, x.finished = false) →
    ∃ (id : Nat) (x : TAct V), s.acts[id]? = some x ∧ x.finished = false ∧ (s.stepAct env id x).isSome = true := by
  intro s ⟨x, hxm, hfin⟩
  have hb : Live s := live_run env s0 sch
  have hcan : ∀ (id : Nat) (x : TAct V), x ∈ s.acts → x.finished = false →
      (x.act.pc = .wait ∨ x.act.pc = .tryWait → s.held x.fn = none) → (s.stepAct env id x).isSome = true := by
    intro id x hx hfin hw
    simp only [ManyState.stepAct, List.getElem?_eq_getElem (hb.fine x hx), Option.isSome_map]
    generalize s.statics[x.fn]'(hb.fine x hx) = sf
    obtain ⟨fn, tid, op, pc⟩ := x
    cases pc with
    | wait =>
      simp only [SAct.step, hw (.inl rfl)]
      split <;> rfl
    | tryWait =>
      simp only [SAct.step, hw (.inr rfl)]
      split <;> rfl
    | done o => simp [TAct.finished, SAct.finished] at hfin
    | dropping p es =>
      cases es with
      | nil => rfl
      | cons e es =>
        simp only [SAct.step]
        repeat' split
        all_goals rfl
    | _ => rfl
  rcases hh : s.held x.fn with _ | j
  · obtain ⟨id, hid⟩ := List.getElem?_of_mem hxm
    exact ⟨id, x, hid, hfin, hcan id x hxm hfin fun _ => hh⟩
  · obtain ⟨y, hy, hyf, hin⟩ := hb.held x.fn j hh
    refine ⟨j, y, hy, ?_, hcan j y (List.mem_of_getElem? hy) ?_ ?_⟩
    · obtain ⟨fn, tid, op, pc⟩ := y
      cases pc <;> first | rfl | simp [SPc.inside, SPc.working] at hin
    · obtain ⟨fn, tid, op, pc⟩ := y
      cases pc <;> first | rfl | simp [SPc.inside, SPc.working] at hin
    · rintro (e | e) <;> (rw [e] at hin; cases hin)

/-- A step only adds to the list of builder calls. -/
theorem step_made_grows (env : Env V) (s : Sys V) (op : Op V) :
    ∃ ext, (s.step env op).2.world.made = s.world.made ++ ext := by
  have hE := step_evo env s op
  generalize (s.step env op).1 = ob at hE
  generalize (s.step env op).2.world = w' at hE
  generalize (s.step env op).2.all = l' at hE
  cases hE with
  | quiet _ ho => exact ⟨[], by simp⟩
  | expect hb hr => exact ⟨_, rfl⟩
  | pred _ _ _ ho => exact ⟨[], by simp⟩
  | @hit tid args upd e _ _ info hc hm h1 ho =>
    obtain ⟨b, hb, hw⟩ := Expectation.call_world ⟨env.nightly, tid, env.dbg, upd⟩ info args e s.world
    exact ⟨[], by rw [hw]; simp⟩

theorem run_made_grows (env : Env V) (ops : List (Op V)) (s : Sys V) :
    ∃ ext, (Sys.run env ops s).2.world.made = s.world.made ++ ext := by
  induction ops generalizing s with
  | nil => exact ⟨[], by simp [Sys.run]⟩
  | cons op ops ih =>
    obtain ⟨e1, h1⟩ := step_made_grows env s op
    obtain ⟨e2, h2⟩ := ih (s.step env op).2
    exact ⟨e1 ++ e2, by rw [← List.append_assoc, ← h1, ← h2]; rfl⟩

theorem slot_grows {made ext : List (List (Build V))} {sid g k : Nat} (h : slot made sid g = some k) :
    slot (made ++ ext) sid g = some k := by
  obtain ⟨c, hc, _⟩ := slot_some h
  have hlt : g < made.length := (List.getElem?_eq_some_iff.mp hc).1
  rw [← h]
  unfold slot
  rw [List.getElem?_append_left hlt, List.take_append_of_le_length (by omega)]

/-- The calls dispatched concurrently are those of a sequential program that goes on where `before` ended. -/
theorem many_log (env : Env V) (sts : List (MethodInfo V)) (before : List (Op V)) (sch : List (ManySched V))
    (hsch : ∀ a ∈ sch, Allowed a)
    (hx : ∀ pre post, sch = pre ++ post →
      Exclusive ((ManyState.rest (Sys.run env before (Sys.init sts)).2).run env pre)) :
    ∃ ops ext, ((ManyState.rest (Sys.run env before (Sys.init sts)).2).run env sch).world.log = logOf env sts ops ∧
      madeOf env sts ops = madeOf env sts before ++ ext := by
  obtain ⟨lin, _, _, _, _, _, _, hlog, _⟩ := C89_linearisable env sts before sch hsch hx
  obtain ⟨ext, hext⟩ := run_made_grows env (program ((ManyState.rest (Sys.run env before (Sys.init sts)).2).run env sch) lin)
    (Sys.run env before (Sys.init sts)).2
  refine ⟨before ++ program ((ManyState.rest (Sys.run env before (Sys.init sts)).2).run env sch) lin, ext, ?_, ?_⟩
  · rw [← hlog, logOf, run_append]
  · rw [madeOf, run_append]; exact hext

/-- **C89**, sequences shared by several methods: when a call to the expectation at position `k` of a sequence is
accepted, every expectation at an earlier position, whatever its method, has received its full count before. -/
theorem C89_complete (env : Env V) (sts : List (MethodInfo V)) (before : List (Op V)) (sch : List (ManySched V))
    (hsch : ∀ a ∈ sch, Allowed a)
    (hx : ∀ pre post, sch = pre ++ post →
      Exclusive ((ManyState.rest (Sys.run env before (Sys.init sts)).2).run env pre)) (sid : Nat) (a b : List (Hit V)) (h : Hit V) :
    let s := (ManyState.rest (Sys.run env before (Sys.init sts)).2).run env sch
    s.world.log.length ≤ usizeMax → s.world.log = a ++ h :: b → h.passed = true →
    ∀ (g j k : Nat), slot (madeOf env sts before) sid h.gid = some k → slot (madeOf env sts before) sid g = some j →
      j < k → (countWin (madeOf env sts before) g).start ≤ hits g a ∧ 0 < hits g a := by
  intro s hlen hab hp g j k hk hj hjk
  obtain ⟨ops, ext, hlog, hmade⟩ := many_log env sts before sch hsch hx
  change s.world.log = _ at hlog
  rw [hlog] at hlen hab
  have hw : countWin (madeOf env sts ops) g = countWin (madeOf env sts before) g := by
    obtain ⟨c, hc, _⟩ := slot_some hj
    have hlt : g < (madeOf env sts before).length := (List.getElem?_eq_some_iff.mp hc).1
    unfold countWin
    rw [hmade, List.getElem?_append_left hlt]
  rw [← hw]
  exact C19_before env sts ops sid hlen a b h hab hp g j k (by rw [hmade]; exact slot_grows hk)
    (by rw [hmade]; exact slot_grows hj) hjk

/-- **C89**, sequences shared by several methods: after a call to position `k` was accepted, no call to an earlier
position is. -/
theorem C89_after (env : Env V) (sts : List (MethodInfo V)) (before : List (Op V)) (sch : List (ManySched V))
    (hsch : ∀ a ∈ sch, Allowed a)
    (hx : ∀ pre post, sch = pre ++ post →
      Exclusive ((ManyState.rest (Sys.run env before (Sys.init sts)).2).run env pre)) (sid : Nat) (a m b : List (Hit V)) (h h' : Hit V) :
    let s := (ManyState.rest (Sys.run env before (Sys.init sts)).2).run env sch
    s.world.log.length ≤ usizeMax → s.world.log = a ++ h :: (m ++ h' :: b) → h.passed = true →
    ∀ (j k : Nat), slot (madeOf env sts before) sid h.gid = some k → slot (madeOf env sts before) sid h'.gid = some j →
      j < k → h'.passed = false := by
  intro s hlen hab hp j k hk hj hjk
  obtain ⟨ops, ext, hlog, hmade⟩ := many_log env sts before sch hsch hx
  change s.world.log = _ at hlog
  rw [hlog] at hlen hab
  exact C19_after env sts ops sid hlen a m b h h' hab hp j k (by rw [hmade]; exact slot_grows hk)
    (by rw [hmade]; exact slot_grows hj) hjk

section Examples

def manyInfo (n : String) : MethodInfo Nat := ⟨false, ⟨.static, n, n, none⟩, fun _ => none⟩

def manyEnv : Env Nat := ⟨false, toString, id⟩

def manySts : List (MethodInfo Nat) := [manyInfo "MockA::f", manyInfo "MockB::g"]

/-- One expectation of each of two methods, in one sequence: first `f`, then `g`. -/
def manySetUp : List (Op Nat) :=
  [.sexpect 0 0 [.times (.n 1), .inSequence 0, .returnConst 7], .sexpect 1 0 [.times (.n 1), .inSequence 0, .returnConst 8]]

/-- The call of `g` locks its mutex first and comes as far as the check of the sequence.  Then `f` is called and
returns, and a third thread adds an expectation to `f`.  Then the call of `g` goes on. -/
def manyRace : List (ManySched Nat) :=
  [.start 1 1 (.call 0 [4])] ++ List.replicate 4 (.step 0) ++ [.start 2 0 (.call 0 [3])] ++ List.replicate 7 (.step 1) ++
    [.start 3 0 (.expect 0 [.returnConst 9]), .step 2] ++ List.replicate 3 (.step 1) ++ List.replicate 5 (.step 2) ++
    List.replicate 6 (.step 0)

def manyAfter : ManyState Nat := (ManyState.rest (Sys.run manyEnv manySetUp (Sys.init manySts)).2).run manyEnv manyRace

example : (∀ a ∈ manyRace, Allowed a) ∧
    manyAfter.acts.map (fun x => match x.act.pc with | .done o => some o | _ => none) =
      [some (.value (.ok 8)), some (.value (.ok 7)), some (.unit (.ok ()) false)] := by
  constructor
  · intro a ha
    simp only [manyRace, List.mem_append, List.mem_cons, List.mem_replicate, List.not_mem_nil, or_false] at ha
    rcases ha with ((((((h | ⟨_, h⟩) | h) | ⟨_, h⟩) | h | h) | ⟨_, h⟩) | ⟨_, h⟩) | ⟨_, h⟩ <;> subst h <;> simp [Allowed]
  · rfl

/-- The order in which the mutexes were locked does not explain this: called first, `g` violates the sequence. -/
example : (Sys.run manyEnv (manySetUp ++ [.scall 1 0 1 [4]]) (Sys.init manySts)).1[2]? =
    some (.value (.error (.seqViolation "MockB::g(4)"))) := by
  rfl

/-- In that run both calls were accepted, at positions 0 and 1 of the sequence, in this order. -/
example : manyAfter.world.log.map (fun h => (h.gid, h.passed)) = [(0, true), (1, true)] ∧
    slot (madeOf manyEnv manySts manySetUp) 0 0 = some 0 ∧ slot (madeOf manyEnv manySts manySetUp) 0 1 = some 1 ∧
    (countWin (madeOf manyEnv manySts manySetUp) 0).start = 1 := by
  refine ⟨rfl, rfl, rfl, rfl⟩

/-- `g` comes too early, is rejected, and `f` is accepted afterwards. -/
def manyEarly : List (ManySched Nat) :=
  [.start 1 1 (.call 0 [4])] ++ List.replicate 12 (.step 0) ++ [.start 2 0 (.call 0 [3])] ++ List.replicate 12 (.step 1)

example : (((ManyState.rest (Sys.run manyEnv manySetUp (Sys.init manySts)).2).run manyEnv manyEarly).world.log.map
    fun h => (h.gid, h.passed)) = [(1, false), (0, true)] := by
  rfl

/-- Two threads add to sequences of their own, at the same time: the steps of both alternate.  Afterwards a third thread
calls both methods. -/
def manyJoin : List (ManySched Nat) :=
  [.start 1 0 (.expect 0 [.times (.n 1), .inSequence 5, .returnConst 3]),
   .start 2 1 (.expect 0 [.times (.n 1), .inSequence 6, .inSequence 6, .returnConst 4])] ++
  (List.replicate 8 [.step 0, .step 1]).flatten ++
  [.start 3 0 (.call 0 [0])] ++ List.replicate 12 (.step 2)

def manyOwner (sid : Nat) : Nat := if sid = 5 then 1 else 2

def manyJoined : ManyState Nat := (ManyState.rest (Sys.init manySts)).run manyEnv manyJoin

/-- The hypotheses hold. -/
example : (∀ a ∈ manyJoin, Allowed a) ∧ (∀ a ∈ manyJoin, Owned manyOwner a) ∧
    (∀ pre post, manyJoin = pre ++ post → Exclusive ((ManyState.rest (Sys.init manySts)).run manyEnv pre)) := by
  have ho : ∀ a ∈ manyJoin, Owned manyOwner a := by
    intro a ha
    simp only [manyJoin, List.mem_append, List.mem_cons, List.not_mem_nil, or_false, List.mem_flatten,
      List.mem_replicate] at ha
    rcases ha with (((h | h) | ⟨l, ⟨_, rfl⟩, h⟩) | h) | ⟨_, h⟩
    · subst h; intro sid hs; simp at hs; simp [manyOwner, hs]
    · subst h; intro sid hs; simp at hs; simp [manyOwner, hs]
    · simp at h; rcases h with h | h <;> subst h <;> simp [Owned]
    · subst h; simp [Owned]
    · subst h; simp [Owned]
  refine ⟨?_, ho, fun pre post hp => C89_owned manyEnv (Sys.init manySts) manyJoin manyOwner ho pre post hp⟩
  intro a ha
  simp only [manyJoin, List.mem_append, List.mem_cons, List.not_mem_nil, or_false, List.mem_flatten,
    List.mem_replicate] at ha
  rcases ha with (((h | h) | ⟨l, ⟨_, rfl⟩, h⟩) | h) | ⟨_, h⟩
  · subst h; simp [Allowed]
  · subst h; simp [Allowed]
  · simp at h; rcases h with h | h <;> subst h <;> simp [Allowed]
  · subst h; simp [Allowed]
  · subst h; simp [Allowed]

/-- All operations end, the call completed the first place of sequence 5, and sequence 6 has two places. -/
example : manyJoined.acts.map (fun x => match x.act.pc with | .done o => some o | _ => none) =
      [some (.unit (.ok ()) false), some (.unit (.ok ()) false), some (.value (.ok 3))] ∧
    manyJoined.world.seqs 5 = ⟨1, 1⟩ ∧ manyJoined.world.seqs 6 = ⟨0, 2⟩ := by
  refine ⟨rfl, rfl, rfl⟩

/-- Two statements that add to the same two sequences, in different order. -/
def manyCross : List (ManySched Nat) :=
  [.start 1 0 (.expect 0 [.times (.n 1), .inSequence 5, .inSequence 6]),
   .start 2 1 (.expect 0 [.times (.n 1), .inSequence 6, .inSequence 5])] ++
  (List.replicate 8 [.step 0, .step 1]).flatten

/-- The places that the expectations of each method have. -/
def manyPlaces (l : List (StaticFn Nat)) : List (List (Option (Nat × Nat))) :=
  l.map fun sf => (sf.store.vec 0).map fun e => e.common.seqHandle.map fun h => (h.sid, h.seq)

/-- Why the condition is there: without it no order explains the places that the expectations get. -/
example : manyPlaces ((ManyState.rest (Sys.init manySts)).run manyEnv manyCross).statics =
      [[some (6, 1)], [some (5, 1)]] ∧
    (∀ x ∈ ((ManyState.rest (Sys.init manySts)).run manyEnv manyCross).acts, x.finished = true) ∧
    ∀ lin ∈ [[0, 1], [1, 0]], manyPlaces (Sys.run manyEnv
      (program ((ManyState.rest (Sys.init manySts)).run manyEnv manyCross) lin) (Sys.init manySts)).2.statics ≠
        [[some (6, 1)], [some (5, 1)]] := by
  refine ⟨rfl, ?_, ?_⟩
  · have h : (((ManyState.rest (Sys.init manySts)).run manyEnv manyCross).acts.all fun x => x.finished) = true := rfl
    simpa using h
  · intro lin hl
    simp only [List.mem_cons, List.not_mem_nil, or_false] at hl
    rcases hl with rfl | rfl
    · decide +kernel
    · decide +kernel

end Examples

end Mockall.Props
