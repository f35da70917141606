import Verif.Lemmas.LinearCall
import Verif.Lemmas.Target

/-! # Calls that have nothing to do with each other, in parallel and one after the other -/

set_option linter.unusedSimpArgs false

namespace Mockall

open Spec

variable {V : Type}

theorem expsOf_target (k : Key) (s : Store V) : expsOf k s = s.target k := by cases s <;> rfl

/-- What a call does to a program, function by function. -/
theorem seq_call (env : Env V) {s : Sys V} (hs : s.Sorted env.nightly) (f : MockFn) (sl : Slot V)
    (hf : f.slot s = some sl) (tid : Nat) (args : List V) :
    let o := Expectations.call ⟨env.nightly, tid, env.dbg, id⟩ (sl.mi.fn f.key) args
      (expsOf f.key sl.store) s.world
    let r := s.step env (.call f.obj f.meth f.key tid args id)
    r.1 = .value (expectMatch ⟨env.nightly, tid, env.dbg, id⟩ (sl.mi.fn f.key) args o.1) ∧
    r.2.world = o.2.2 ∧
    (∃ sl1, f.slot r.2 = some sl1 ∧ expsOf f.key sl1.store = o.2.1) ∧
    (∀ g : MockFn, (g.slot r.2).map (·.mi) = (g.slot s).map (·.mi)) ∧
    (∀ (g : MockFn) (slg : Slot V), g.slot s = some slg → f.Differ g sl →
      ∃ sl1, g.slot r.2 = some sl1 ∧ expsOf g.key sl1.store = expsOf g.key slg.store) := by
  simp only
  simp only [MockFn.slot] at hf
  rcases hobj : s.objs[f.obj]? with _ | _ | obj
  · simp [hobj] at hf
  · simp [hobj] at hf
  · simp only [hobj] at hf
    have hgen := (hs.objs _ _ hobj _ _ hf).generic
    obtain ⟨h1, h2, h3⟩ := Store.call_target ⟨env.nightly, tid, env.dbg, id⟩ sl.mi f.key args sl.store s.world
    simp only [Sys.step, hobj, Obj.call, hf, expsOf_target]
    rw [h1, h2]
    have ho : f.obj < s.objs.length := (List.getElem?_eq_some_iff.mp hobj).1
    have hml : f.meth < obj.length := (List.getElem?_eq_some_iff.mp hf).1
    refine ⟨rfl, rfl, ⟨{ sl with store := _ }, ?_, h3⟩, ?_, ?_⟩
    · simp only [MockFn.slot, List.getElem?_set_self ho, List.getElem?_set_self hml]
    · intro g
      by_cases hgo : f.obj = g.obj
      · simp only [MockFn.slot, ← hgo, List.getElem?_set_self ho, hobj]
        by_cases hgm : f.meth = g.meth
        · simp only [← hgm, List.getElem?_set_self hml, hf, Option.map_some]
        · rw [List.getElem?_set_ne hgm]
      · simp only [MockFn.slot, List.getElem?_set_ne hgo]
    · intro g slg hg hd
      by_cases hgo : f.obj = g.obj
      · simp only [MockFn.slot, ← hgo, List.getElem?_set_self ho, hobj] at hg ⊢
        by_cases hgm : f.meth = g.meth
        · simp only [← hgm, List.getElem?_set_self hml] at hg ⊢
          rw [hf] at hg
          cases hg
          rcases hd with h | h | ⟨hg, hk⟩
          · exact absurd hgo h
          · exact absurd hgm h
          · refine ⟨_, rfl, ?_⟩
            simp only
            rw [hg] at hgen
            cases hst : sl.store with
            | concrete es => simp [hst, Store.isGeneric] at hgen
            | generic gm => exact Store.call_target_other _ _ hk _ _ _
        · rw [List.getElem?_set_ne hgm]
          exact ⟨slg, hg, rfl⟩
      · simp only [MockFn.slot, List.getElem?_set_ne hgo] at hg ⊢
        exact ⟨slg, hg, rfl⟩

/-- `m` agrees with the program state `S` on function `n` and on its sequences, and its locks are free. -/
structure AgreeAt (ce : CEnv V) (num : Nat → MockFn) (m0 : Mem V) (m : Mem V) (S : Sys V) (n : Nat) : Prop where
  exps : ∀ sl, (num n).slot S = some sl → (ce.vec n).map (fun a => (m.heap a).exp) = expsOf (num n).key sl.store
  free : ∀ a ∈ ce.vec n, (m.heap a).mheld = none ∧ (m.heap a).rheld = none
  seqs : ∀ a ∈ ce.vec n, ∀ h, (m0.heap a).exp.common.seqHandle = some h → m.seqs h.sid = S.world.seqs h.sid

/-- Nobody is using sequence `q`. -/
def Quiet (ce : CEnv V) (m0 : Mem V) (t : CState V) (q : Nat) : Prop :=
  ∀ act ∈ t.acts, act.finished = false → ∀ a ∈ ce.vec act.meth, ∀ h,
    (m0.heap a).exp.common.seqHandle = some h → h.sid ≠ q

/-- The state of the threads and the state of a program that has run all calls begun so far. -/
structure LInv (env : Env V) (ce : CEnv V) (num : Nat → MockFn) (s0 : Sys V) (m0 : Mem V)
    (t : CState V) (S : Sys V) (obs : List (Obs V)) : Prop where
  sorted : S.Sorted env.nightly
  slots : ∀ f : MockFn, (f.slot S).map (·.mi) = (f.slot s0).map (·.mi)
  handle : ∀ b, (t.mem.heap b).exp.common.seqHandle = (m0.heap b).exp.common.seqHandle
  within : ∀ act ∈ t.acts, act.Within ce
  known : ∀ act ∈ t.acts, (num act.meth).slot s0 ≠ none
  len : obs.length = t.acts.length
  done : ∀ (id : Nat) (act : Act V) r, t.acts[id]? = some act → act.pc = .done r → obs[id]? = some (.value r)
  pend : ∀ (id : Nat) (act : Act V), t.acts[id]? = some act → act.finished = false →
    ∃ r m', Finishes ce id act t.mem r m' ∧ obs[id]? = some (.value r) ∧ AgreeAt ce num m0 m' S act.meth
  idle : ∀ n, (num n).slot s0 ≠ none → (∀ act ∈ t.acts, act.finished = false → act.meth ≠ n) →
    (∀ sl, (num n).slot S = some sl → (ce.vec n).map (fun a => (t.mem.heap a).exp) = expsOf (num n).key sl.store) ∧
    ∀ a ∈ ce.vec n, (t.mem.heap a).mheld = none ∧ (t.mem.heap a).rheld = none
  seqs : ∀ q, Quiet ce m0 t q → t.mem.seqs q = S.world.seqs q
  apart : ∀ (id id' : Nat) (act act' : Act V), id ≠ id' → t.acts[id]? = some act → t.acts[id']? = some act' →
    act.finished = false → act'.finished = false → Apart ce m0 act.meth act'.meth

theorem Spec.Apart.comm {ce : CEnv V} {m : Mem V} {n n' : Nat} (h : Apart ce m n n') : Apart ce m n' n :=
  ⟨fun hx => h.1 hx.symm, fun a ha b hb x y hx hy hxy => h.2 b hb a ha y x hy hx hxy.symm⟩

variable {env : Env V} {ce : CEnv V} {num : Nat → MockFn} {s0 : Sys V} {m0 : Mem V}

theorem LInv.init (hs : s0.Sorted env.nightly) (h : Shared env s0 num ce m0) :
    LInv env ce num s0 m0 ⟨m0, []⟩ s0 [] where
  sorted := hs
  slots _ := rfl
  handle _ := rfl
  within := by simp
  known := by simp
  len := rfl
  done := by simp
  pend := by simp
  idle n hn _ := by
    obtain ⟨sl, hsl⟩ := Option.ne_none_iff_exists'.mp hn
    refine ⟨fun sl hsl => h.exps n sl hsl, h.free n sl hsl⟩
  seqs q _ := by simp [h.seqs]
  apart := by simp

/-- A step of one call. -/
theorem LInv.step {t : CState V} {S : Sys V} {obs : List (Obs V)} (sh : Shared env s0 num ce m0)
    (h : LInv env ce num s0 m0 t S obs) (id : Nat) (act act1 : Act V) (m1 : Mem V)
    (hact : t.acts[id]? = some act) (hs : act.step ce id t.mem = some (act1, m1)) :
    LInv env ce num s0 m0 ⟨m1, t.acts.set id act1⟩ S obs := by
  have hrel := Act.step_rel hs
  have hmeth := hrel.ident.1
  have hmem : act ∈ t.acts := List.mem_of_getElem? hact
  have hunf : act.finished = false := by
    cases hp : act.pc <;> simp [Act.finished, hp]
    simp [Act.step, hp] at hs
  have hw := h.within act hmem
  obtain ⟨w1, w2⟩ := hrel.writes
  -- what the step does not touch
  have hout : ∀ b, b ∉ ce.vec act.meth → m1.heap b = t.mem.heap b := fun b hb => w1 b (fun hx => hb (hw.pc b hx))
  have hsq : ∀ q, (∀ a ∈ ce.vec act.meth, ∀ h, (m0.heap a).exp.common.seqHandle = some h → h.sid ≠ q) →
      m1.seqs q = t.mem.seqs q := fun q hq =>
    w2 q (fun a ha x hx => hq a (hw.pc a ha) x (h.handle a ▸ hx))
  have hacts : ∀ (c : Nat) x, (t.acts.set id act1)[c]? = some x → (c = id ∧ x = act1) ∨ (c ≠ id ∧ t.acts[c]? = some x) := by
    intro c x hx
    rw [acts_set hact] at hx
    split at hx
    next hc => cases hx; exact .inl ⟨hc, rfl⟩
    next hc => exact .inr ⟨hc, hx⟩
  have hmems : ∀ x ∈ t.acts.set id act1, x = act1 ∨ ∃ c, c ≠ id ∧ t.acts[c]? = some x := by
    intro x hx
    obtain ⟨c, hc⟩ := List.getElem?_of_mem hx
    rcases hacts c x hc with ⟨_, h⟩ | ⟨h1, h2⟩
    · exact .inl h
    · exact .inr ⟨c, h1, h2⟩
  have hmemo : ∀ c x, c ≠ id → t.acts[c]? = some x → x ∈ t.acts.set id act1 := by
    intro c x hc hx
    refine List.mem_of_getElem? (i := c) ?_
    rw [acts_set hact, if_neg hc, hx]
  have hmem1 : act1 ∈ t.acts.set id act1 := by
    refine List.mem_of_getElem? (i := id) ?_
    rw [acts_set hact, if_pos rfl]
  have hknown : (num act.meth).slot s0 ≠ none := h.known act hmem
  -- expectations on other functions are elsewhere
  have hother : ∀ n, (num n).slot s0 ≠ none → n ≠ act.meth → ∀ a ∈ ce.vec n, m1.heap a = t.mem.heap a := by
    intro n hn hne a ha
    obtain ⟨sl, hsl⟩ := Option.ne_none_iff_exists'.mp hn
    obtain ⟨sl', hsl'⟩ := Option.ne_none_iff_exists'.mp hknown
    exact hout a (fun hx => sh.disjoint n act.meth sl sl' hne hsl hsl' a ha hx)
  obtain ⟨r, m', hf, ho, ha⟩ := h.pend id act hact hunf
  obtain ⟨act1', m1', hs', hf1⟩ := hf.inv hunf
  rw [hs] at hs'
  cases hs'
  refine ⟨h.sorted, h.slots, fun b => ((hrel.same b).handle).trans (h.handle b), ?_, ?_, ?_, ?_, ?_, ?_, ?_, ?_⟩
  · intro x hx
    rcases hmems x hx with rfl | ⟨c, _, hc⟩
    · exact hrel.within hw
    · exact h.within x (List.mem_of_getElem? hc)
  · intro x hx
    rcases hmems x hx with rfl | ⟨c, _, hc⟩
    · rw [hmeth]; exact hknown
    · exact h.known x (List.mem_of_getElem? hc)
  · simpa using h.len
  · intro c x r' hx hd
    rcases hacts c x hx with ⟨rfl, rfl⟩ | ⟨_, hx⟩
    · cases hf1 with
      | done hd' => rw [hd] at hd'; cases hd'; exact ho
      | step hstep _ => simp [Act.step, hd] at hstep
    · exact h.done c x r' hx hd
  · intro c x hx hxf
    rcases hacts c x hx with ⟨rfl, rfl⟩ | ⟨hc, hx⟩
    · exact ⟨r, m', hf1, ho, hmeth ▸ ha⟩
    · obtain ⟨r2, m2, hf2, ho2, ha2⟩ := h.pend c x hx hxf
      have hap := h.apart c id x act hc hx hact hxf hunf
      have hkx := h.known x (List.mem_of_getElem? hx)
      obtain ⟨n2, g1, g2, g3⟩ := hf2.frame (n := m1) (h.within x (List.mem_of_getElem? hx))
        (fun a ha => (hother x.meth hkx hap.1 a ha).symm)
        (fun a ha q hq => (hsq q.sid (fun b hb y hy => (hap.2 a ha b hb q y (h.handle a ▸ hq) hy).symm)).symm)
      refine ⟨r2, n2, g1, ho2, fun sl hsl => ?_, fun a ha => ?_, fun a ha q hq => ?_⟩
      · rw [← ha2.exps sl hsl]
        refine List.map_congr_left (fun a ha => ?_)
        rw [g2 a (hother x.meth hkx hap.1 a ha).symm]
      · rw [← g2 a (hother x.meth hkx hap.1 a ha).symm]; exact ha2.free a ha
      · rw [← g3 q.sid (hsq q.sid (fun b hb y hy => (hap.2 a ha b hb q y hq hy).symm)).symm]
        exact ha2.seqs a ha q hq
  · intro n hn hid
    by_cases hne : n = act.meth
    · -- the call is over
      subst hne
      have hfin : act1.finished = true := by
        cases hx : act1.finished with
        | true => rfl
        | false => exact absurd hmeth (hid act1 hmem1 hx)
      have : m1 = m' := by
        cases hf1 with
        | done _ => rfl
        | step hstep _ =>
          cases hp : act1.pc <;> simp [Act.finished, hp] at hfin
          simp [Act.step, hp] at hstep
      subst this
      exact ⟨ha.exps, ha.free⟩
    · have hold := h.idle n hn (fun x hx hxf => by
        obtain ⟨c, hc⟩ := List.getElem?_of_mem hx
        by_cases hci : c = id
        · subst hci
          rw [hact] at hc
          cases hc
          exact fun hx => hne hx.symm
        · exact hid x (hmemo c x hci hc) hxf)
      refine ⟨fun sl hsl => ?_, fun a ha => ?_⟩
      · rw [← hold.1 sl hsl]
        exact List.map_congr_left (fun a ha => by rw [hother n hn hne a ha])
      · rw [hother n hn hne a ha]; exact hold.2 a ha
  · intro q hq
    by_cases hin : ∀ a ∈ ce.vec act.meth, ∀ h, (m0.heap a).exp.common.seqHandle = some h → h.sid ≠ q
    · show m1.seqs q = _
      rw [hsq q hin]
      refine h.seqs q (fun x hx hxf => ?_)
      obtain ⟨c, hc⟩ := List.getElem?_of_mem hx
      by_cases hci : c = id
      · subst hci
        rw [hact] at hc
        cases hc
        exact hin
      · exact hq x (hmemo c x hci hc) hxf
    · have hfin : act1.finished = true := by
        cases hx : act1.finished with
        | true => rfl
        | false => exact absurd (fun a ha => hq act1 hmem1 hx a (hmeth.symm ▸ ha)) hin
      have : m1 = m' := by
        cases hf1 with
        | done _ => rfl
        | step hstep _ =>
          cases hp : act1.pc <;> simp [Act.finished, hp] at hfin
          simp [Act.step, hp] at hstep
      subst this
      simp only [Classical.not_forall, Classical.not_imp, ne_eq, Classical.not_not] at hin
      obtain ⟨a, haa, x, hx, rfl⟩ := hin
      exact ha.seqs a haa x hx
  · intro c c' x x' hcc hx hx' hxf hxf'
    rcases hacts c x hx with ⟨rfl, rfl⟩ | ⟨hc, hx1⟩ <;> rcases hacts c' x' hx' with ⟨rfl, rfl⟩ | ⟨hc', hx1'⟩
    · exact absurd rfl hcc
    · rw [hmeth]; exact h.apart c c' act x' hcc hact hx1' hunf hxf'
    · rw [hmeth]; exact h.apart c c' x act hcc hx1 hact hxf hunf
    · exact h.apart c c' x x' hcc hx1 hx1' hxf hxf'

/-- A call begins. -/
theorem LInv.start {t : CState V} {S : Sys V} {obs : List (Obs V)} (sh : Shared env s0 num ce m0)
    (h : LInv env ce num s0 m0 t S obs) (n tid : Nat) (args : List V) (hn : (num n).slot s0 ≠ none)
    (hap : ∀ act ∈ t.acts, act.finished = false → Apart ce m0 act.meth n) :
    LInv env ce num s0 m0 { t with acts := t.acts ++ [Act.start ce n tid args] }
      (S.step env (asOp num (Act.start ce n tid args))).2
      (obs ++ [(S.step env (asOp num (Act.start ce n tid args))).1]) := by
  obtain ⟨sl0, hsl0⟩ := Option.ne_none_iff_exists'.mp hn
  obtain ⟨sl, hsl, hmi⟩ : ∃ sl, (num n).slot S = some sl ∧ sl.mi = sl0.mi := by
    have := h.slots (num n)
    rw [hsl0] at this
    cases hx : (num n).slot S with
    | none => simp [hx] at this
    | some sl => simp [hx] at this; exact ⟨sl, rfl, this⟩
  obtain ⟨c1, c2, ⟨sl1, c3, c4⟩, c5, c6⟩ := seq_call env h.sorted (num n) sl hsl tid args
  have hop : asOp num (Act.start ce n tid args) = .call (num n).obj (num n).meth (num n).key tid args id := rfl
  rw [hop]
  generalize hR : S.step env (.call (num n).obj (num n).meth (num n).key tid args id) = R at c1 c2 c3 c5 c6 ⊢
  have hsorted : R.2.Sorted env.nightly := hR ▸ h.sorted.step _
  obtain ⟨hexps, hfree⟩ := h.idle n hn (fun act ha hf => (hap act ha hf).1)
  have hseqs : ∀ a ∈ ce.vec n, ∀ x, (m0.heap a).exp.common.seqHandle = some x →
      t.mem.seqs x.sid = S.world.seqs x.sid := by
    intro a ha x hx
    refine h.seqs x.sid (fun act hact hf b hb y hy => ?_)
    exact (hap act hact hf).2 b hb a ha y x hy hx
  -- run the call alone from the memory of the program
  obtain ⟨m1, f1, f2, f3, f4, f5⟩ := finishes_scan (ce := ce) (id := t.acts.length)
    (m := { t.mem with seqs := S.world.seqs }) S.world rfl (ce.vec n) (Act.start ce n tid args) rfl
    (sh.nodup n sl0 hsl0) hfree
  have hmeth : (Act.start ce n tid args).meth = n := rfl
  have hwit : (Act.start ce n tid args).Within ce := ⟨by simp [Act.start, Pc.addrs], by simp [Act.start]⟩
  have hcx : ce.cx (Act.start ce n tid args) = ⟨env.nightly, tid, env.dbg, id⟩ := by
    simp only [CEnv.cx, Act.start, sh.nightly, sh.dbg]
  have hinfo : ce.info (Act.start ce n tid args).meth = sl.mi.fn (num n).key := by
    rw [hmeth, hmi]; exact sh.info n sl0 hsl0
  have hargs : (Act.start ce n tid args).args = args := rfl
  have hlen : (ce.vec n).length = (expsOf (num n).key sl.store).length := by
    rw [← hexps sl hsl, List.length_map]
  have hcs : callScan (ce.cx (Act.start ce n tid args)) (ce.info (Act.start ce n tid args).meth)
      (Act.start ce n tid args).args (ce.vec (Act.start ce n tid args).meth).length
      ((ce.vec n).map fun a => (t.mem.heap a).exp) S.world =
      Expectations.call ⟨env.nightly, tid, env.dbg, id⟩ (sl.mi.fn (num n).key) args
        (expsOf (num n).key sl.store) S.world := by
    rw [hcx, hinfo, hargs, hmeth, hexps sl hsl, hlen]
    rfl
  simp only [hcs] at f1 f2 f3
  rw [hcx, hinfo, hargs] at f1
  obtain ⟨wr1, wr2, wr3⟩ := f1.writes hwit
  obtain ⟨m2, g1, g2, g3⟩ := f1.frame (n := t.mem) hwit (fun a _ => rfl)
    (fun a ha x hx => (hseqs a ha x (h.handle a ▸ hx)).symm)
  have hq : ∀ q, (∀ a ∈ ce.vec n, ∀ x, (m0.heap a).exp.common.seqHandle = some x → x.sid ≠ q) →
      R.2.world.seqs q = S.world.seqs q := by
    intro q hq
    rw [c2, ← f3]
    exact wr2 q (fun a ha x hx => hq a ha x (h.handle a ▸ hx))
  have hacts : ∀ (c : Nat) x, (t.acts ++ [Act.start ce n tid args])[c]? = some x →
      (c = t.acts.length ∧ x = Act.start ce n tid args) ∨ (c ≠ t.acts.length ∧ t.acts[c]? = some x) := by
    intro c x hx
    rw [acts_push] at hx
    split at hx
    next hc => cases hx; exact .inl ⟨hc, rfl⟩
    next hc => exact .inr ⟨hc, hx⟩
  have hobs : ∀ (c : Nat) y, obs[c]? = some y → (obs ++ [R.1])[c]? = some y := by
    intro c y hy
    rw [List.getElem?_append_left (List.getElem?_eq_some_iff.mp hy).1]
    exact hy
  have hslots : ∀ f : MockFn, (f.slot R.2).map (·.mi) = (f.slot s0).map (·.mi) := fun f => (c5 f).trans (h.slots f)
  -- functions other than the one called
  have hoth : ∀ k, (num k).slot s0 ≠ none → n ≠ k → ∀ slk, (num k).slot R.2 = some slk →
      ∃ sl', (num k).slot S = some sl' ∧ expsOf (num k).key slk.store = expsOf (num k).key sl'.store := by
    intro k hk hne slk hslk
    obtain ⟨slk0, hslk0⟩ := Option.ne_none_iff_exists'.mp hk
    obtain ⟨sl', hsl'⟩ : ∃ sl', (num k).slot S = some sl' := by
      have := h.slots (num k)
      rw [hslk0] at this
      cases hx : (num k).slot S with
      | none => simp [hx] at this
      | some sl => exact ⟨sl, rfl⟩
    have hd := sh.distinct n k sl0 slk0 hne hsl0 hslk0
    obtain ⟨sl1, d1, d2⟩ := c6 (num k) sl' hsl' (by
      rcases hd with h | h | ⟨h1, h2⟩
      · exact .inl h
      · exact .inr (.inl h)
      · exact .inr (.inr ⟨hmi ▸ h1, h2⟩))
    rw [hslk] at d1
    cases d1
    exact ⟨sl', hsl', d2⟩
  refine ⟨hsorted, hslots, h.handle, ?_, ?_, ?_, ?_, ?_, ?_, ?_, ?_⟩
  · intro x hx
    rcases List.mem_append.mp hx with hx | hx
    · exact h.within x hx
    · rw [List.mem_singleton.mp hx]; exact hwit
  · intro x hx
    rcases List.mem_append.mp hx with hx | hx
    · exact h.known x hx
    · rw [List.mem_singleton.mp hx]; exact hn
  · simp [h.len]
  · intro c x r hx hd
    rcases hacts c x hx with ⟨rfl, rfl⟩ | ⟨_, hx⟩
    · simp [Act.start] at hd
    · exact hobs c _ (h.done c x r hx hd)
  · intro c x hx hxf
    rcases hacts c x hx with ⟨rfl, rfl⟩ | ⟨_, hx⟩
    · refine ⟨_, m2, g1, ?_, ?_, ?_, ?_⟩
      · rw [← h.len, List.getElem?_append_right (Nat.le_refl _), Nat.sub_self, c1]
        rfl
      · intro sl' hsl'
        rw [show (Act.start ce n tid args).meth = n from rfl, c3] at hsl'
        cases hsl'
        rw [show (Act.start ce n tid args).meth = n from rfl, c4, ← f2]
        exact List.map_congr_left (fun a _ => by rw [g2 a rfl])
      · intro a ha
        rw [← g2 a rfl]
        exact f4 a ha
      · intro a ha q hq
        rw [← g3 q.sid (hseqs a ha q hq).symm, f3, c2]
    · obtain ⟨r2, m3, hf2, ho2, ha2⟩ := h.pend c x hx hxf
      have hxm := List.mem_of_getElem? hx
      have hax := hap x hxm hxf
      refine ⟨r2, m3, hf2, hobs c _ ho2, fun slk hslk => ?_, ha2.free, fun a ha q hqa => ?_⟩
      · obtain ⟨sl', e1, e2⟩ := hoth x.meth (h.known x hxm) (fun hx => hax.1 hx.symm) slk hslk
        rw [ha2.exps sl' e1, e2]
      · rw [ha2.seqs a ha q hqa, hq q.sid (fun b hb y hy => (hax.2 a ha b hb q y hqa hy).symm)]
  · intro k hk hid
    have hne : n ≠ k := hid (Act.start ce n tid args) (by simp) rfl
    have hold := h.idle k hk (fun x hx hxf => hid x (List.mem_append_left _ hx) hxf)
    refine ⟨fun slk hslk => ?_, hold.2⟩
    obtain ⟨sl', e1, e2⟩ := hoth k hk hne slk hslk
    rw [hold.1 sl' e1, e2]
  · intro q hqq
    rw [hq q (hqq (Act.start ce n tid args) (by simp) rfl)]
    exact h.seqs q (fun x hx hxf => hqq x (List.mem_append_left _ hx) hxf)
  · intro c c' x x' hcc hx hx' hxf hxf'
    rcases hacts c x hx with ⟨rfl, rfl⟩ | ⟨hc, hx⟩ <;> rcases hacts c' x' hx' with ⟨rfl, rfl⟩ | ⟨hc', hx'⟩
    · exact absurd rfl hcc
    · exact Spec.Apart.comm (hap x' (List.mem_of_getElem? hx') hxf')
    · exact hap x (List.mem_of_getElem? hx) hxf
    · exact h.apart c c' x x' hcc hx hx' hxf hxf'

end Mockall
