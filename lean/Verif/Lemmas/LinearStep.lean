import Verif.Lemmas.ConcMore
import Verif.Spec.Linear

/-! # A call that runs alone, and what calls of different functions have in common -/

set_option linter.unusedSimpArgs false

namespace Mockall

variable {V : Type}

/-- Call number `id`, running alone from memory `m`, ends with result `r` and leaves memory `m'`. -/
inductive Finishes (ce : CEnv V) (id : Nat) : Act V → Mem V → Except Panic V → Mem V → Prop
  | done {act m r} (h : act.pc = .done r) : Finishes ce id act m r m
  | step {act m act1 m1 r m'} (h : act.step ce id m = some (act1, m1))
      (hf : Finishes ce id act1 m1 r m') : Finishes ce id act m r m'

/-! ## Frames -/

/-- A step of a call reads and writes only the expectations it deals with and their sequences. -/
theorem Act.step_frame {ce : CEnv V} {id : Nat} {act act' : Act V} {m m1 n : Mem V}
    (hA : ∀ a ∈ act.pc.addrs, m.heap a = n.heap a)
    (hQ : ∀ a ∈ act.pc.addrs, ∀ h, (m.heap a).exp.common.seqHandle = some h → m.seqs h.sid = n.seqs h.sid)
    (hs : act.step ce id m = some (act', m1)) :
    ∃ n1, act.step ce id n = some (act', n1) ∧
      (∀ b, m.heap b = n.heap b → m1.heap b = n1.heap b) ∧
      (∀ q, m.seqs q = n.seqs q → m1.seqs q = n1.seqs q) := by
  have hput : ∀ (a : Nat) (c : Cell V) b, m.heap b = n.heap b → (m.put a c).heap b = (n.put a c).heap b := by
    intro a c b hb; simp [hb]
  cases hpc : act.pc with
  | scan rest =>
    cases rest with
    | nil =>
      simp only [Act.step, hpc] at hs ⊢
      cases hs
      exact ⟨n, rfl, fun b h => h, fun q h => h⟩
    | cons a rest =>
      have ha := hA a (by simp [hpc, Pc.addrs])
      simp only [Act.step, hpc, ← ha] at hs ⊢
      cases hm : (m.heap a).mheld with
      | some _ => simp [hm] at hs
      | none =>
        simp only [hm] at hs ⊢
        split at hs <;> rename_i hp <;> cases hs
        · exact ⟨n, by simp [hp], fun b h => h, fun q h => h⟩
        · exact ⟨_, by simp only [hp]; rfl, hput _ _, fun q h => h⟩
  | matching a rest =>
    have ha := hA a (by simp [hpc, Pc.addrs])
    simp only [Act.step, hpc, ← ha] at hs ⊢
    cases hs
    exact ⟨_, rfl, hput _ _, fun q h => h⟩
  | check a rest =>
    have ha := hA a (by simp [hpc, Pc.addrs])
    simp only [Act.step, hpc, ← ha] at hs ⊢
    cases hd : (m.heap a).exp.isDone with
    | error p => simp only [hd] at hs ⊢; cases hs; exact ⟨n, rfl, fun b h => h, fun q h => h⟩
    | ok d =>
      simp only [hd] at hs ⊢
      split at hs <;> rename_i hp <;> cases hs
      · exact ⟨n, by simp only [hp, if_true], fun b h => h, fun q h => h⟩
      · exact ⟨n, by simp only [hp]; rfl, fun b h => h, fun q h => h⟩
  | inc a =>
    have ha := hA a (by simp [hpc, Pc.addrs])
    simp only [Act.step, hpc, ← ha] at hs ⊢
    cases hs
    exact ⟨_, rfl, hput _ _, fun q h => h⟩
  | callFail a e =>
    have ha := hA a (by simp [hpc, Pc.addrs])
    simp only [Act.step, hpc, ← ha] at hs ⊢
    cases hm : (m.heap a).mheld with
    | some _ => simp [hm] at hs
    | none => simp only [hm] at hs ⊢; cases hs; exact ⟨n, rfl, fun b h => h, fun q h => h⟩
  | verify a =>
    have ha := hA a (by simp [hpc, Pc.addrs])
    have hq := hQ a (by simp [hpc, Pc.addrs])
    have hv : (m.heap a).exp.common.verifySequence m.seqs (callDesc (ce.cx act) (ce.info act.meth) act.args)
        = (m.heap a).exp.common.verifySequence n.seqs (callDesc (ce.cx act) (ce.info act.meth) act.args) := by
      simp only [Common.verifySequence]
      cases hh : (m.heap a).exp.common.seqHandle with
      | none => rfl
      | some h => simp only [Seqs.verify, hq h hh]
    simp only [Act.step, hpc, ← ha, ← hv] at hs ⊢
    cases hd : (m.heap a).exp.common.verifySequence m.seqs (callDesc (ce.cx act) (ce.info act.meth) act.args) with
    | error p => simp only [hd] at hs ⊢; cases hs; exact ⟨n, rfl, fun b h => h, fun q h => h⟩
    | ok u => simp only [hd] at hs ⊢; cases hs; exact ⟨n, rfl, fun b h => h, fun q h => h⟩
  | loadLow a =>
    have ha := hA a (by simp [hpc, Pc.addrs])
    simp only [Act.step, hpc, ← ha] at hs ⊢
    cases hs
    exact ⟨n, rfl, fun b h => h, fun q h => h⟩
  | loadHigh a low =>
    have ha := hA a (by simp [hpc, Pc.addrs])
    simp only [Act.step, hpc, ← ha] at hs ⊢
    cases hs
    exact ⟨n, rfl, fun b h => h, fun q h => h⟩
  | satisfy a =>
    have ha := hA a (by simp [hpc, Pc.addrs])
    have hq := hQ a (by simp [hpc, Pc.addrs])
    have hv : ((m.heap a).exp.common.satisfySequence m.seqs).1 = ((m.heap a).exp.common.satisfySequence n.seqs).1 ∧
        ∀ q, m.seqs q = n.seqs q → ((m.heap a).exp.common.satisfySequence m.seqs).2 q
          = ((m.heap a).exp.common.satisfySequence n.seqs).2 q := by
      simp only [Common.satisfySequence]
      cases hh : (m.heap a).exp.common.seqHandle with
      | none => exact ⟨rfl, fun q h => h⟩
      | some h =>
        simp only [Seqs.satisfy, hq h hh]
        refine ⟨by split <;> rfl, fun q hq => ?_⟩
        split <;> simp only [Seqs.set] <;> split <;> first | rfl | exact hq
    simp only [Act.step, hpc, ← ha, ← hv.1] at hs ⊢
    cases hs
    exact ⟨_, rfl, fun b h => h, fun q h => hv.2 q h⟩
  | ret a =>
    have ha := hA a (by simp [hpc, Pc.addrs])
    simp only [Act.step, hpc, ← ha] at hs ⊢
    cases hr : (m.heap a).exp.ret with
    | ref r =>
      simp only [hr] at hs ⊢
      cases hv : r.call ce.nightly with
      | ok v => simp only [hv] at hs ⊢; cases hs; exact ⟨n, rfl, fun b h => h, fun q h => h⟩
      | error e => simp only [hv] at hs ⊢; cases hs; exact ⟨n, rfl, fun b h => h, fun q h => h⟩
    | refMut r =>
      simp only [hr] at hs ⊢
      cases hs
      have : ∀ w w' : World V,
          ((m.heap a).exp.ret_call (ce.cx act) (ce.info act.meth) act.args w).1
            = ((m.heap a).exp.ret_call (ce.cx act) (ce.info act.meth) act.args w').1 ∧
          ((m.heap a).exp.ret_call (ce.cx act) (ce.info act.meth) act.args w).2.1
            = ((m.heap a).exp.ret_call (ce.cx act) (ce.info act.meth) act.args w').2.1 := by
        intro w w'
        simp only [Expectation.ret_call, hr]
        repeat' split
        all_goals exact ⟨rfl, rfl⟩
      obtain ⟨h1, h2⟩ := this ⟨m.seqs, 0, [], [], m.runs⟩ ⟨n.seqs, 0, [], [], n.runs⟩
      refine ⟨_, congrArg some (Prod.ext (by simp only [h1]) rfl), fun b hb => ?_, fun q hq => hq⟩
      simp only [Mem.put_heap, h2]
      split <;> first | rfl | exact hb
    | static r poison =>
      simp only [hr] at hs ⊢
      cases hm : (m.heap a).rheld with
      | some _ => simp [hm] at hs
      | none =>
        simp only [hm] at hs ⊢
        split at hs <;> rename_i hp <;> cases hs
        · exact ⟨n, by simp [hp], fun b h => h, fun q h => h⟩
        · exact ⟨_, by simp only [hp]; rfl, hput _ _, fun q h => h⟩
  | run a =>
    have ha := hA a (by simp [hpc, Pc.addrs])
    simp only [Act.step, hpc, ← ha] at hs ⊢
    cases hr : (m.heap a).exp.ret with
    | ref r => simp [hr] at hs
    | refMut r => simp [hr] at hs
    | static r poison =>
      simp only [hr] at hs ⊢
      rcases ho : (r.callMut ce.nightly (ce.info act.meth).default act.tid act.args).out with p | e | v
      all_goals
        simp only [ho] at hs ⊢
        cases hs
        exact ⟨_, rfl, hput _ _, fun q h => h⟩
  | runFail a e =>
    have ha := hA a (by simp [hpc, Pc.addrs])
    simp only [Act.step, hpc, ← ha] at hs ⊢
    cases hm : (m.heap a).mheld with
    | some _ => simp [hm] at hs
    | none =>
      cases hr : (m.heap a).exp.ret with
      | ref r => simp [hr, hm] at hs
      | refMut r => simp [hr, hm] at hs
      | static r poison =>
        simp only [hr, hm] at hs ⊢
        cases hs
        exact ⟨_, rfl, hput _ _, fun q h => h⟩
  | refFail a e =>
    have ha := hA a (by simp [hpc, Pc.addrs])
    simp only [Act.step, hpc, ← ha] at hs ⊢
    cases hm : (m.heap a).mheld with
    | some _ => simp [hm] at hs
    | none => simp only [hm] at hs ⊢; cases hs; exact ⟨n, rfl, fun b h => h, fun q h => h⟩
  | done r => simp [Act.step, hpc] at hs

/-- A step of a call leaves all other expectations and all other sequences alone. -/
theorem Act.Step.writes {ce : CEnv V} {id : Nat} {act act' : Act V} {m m' : Mem V}
    (h : Act.Step ce id act m act' m') :
    (∀ b, b ∉ act.pc.addrs → m'.heap b = m.heap b) ∧
    (∀ q, (∀ a ∈ act.pc.addrs, ∀ h, (m.heap a).exp.common.seqHandle = some h → h.sid ≠ q) →
      m'.seqs q = m.seqs q) := by
  have hput : ∀ (a : Nat) (c : Cell V) b, b ≠ a → (m.put a c).heap b = m.heap b := by
    intro a c b hb; simp [hb]
  cases h
  case satFail a p hpc hs =>
    refine ⟨fun b _ => rfl, fun q hq => ?_⟩
    have := hq a (by simp [hpc, Pc.addrs])
    simp only [Common.satisfySequence]
    cases hh : (m.heap a).exp.common.seqHandle with
    | none => rfl
    | some h =>
      have := this h hh
      simp only [Seqs.satisfy]
      split <;> simp only [Seqs.set] <;> rw [if_neg (fun hx => this hx.symm)]
  case satOk a hpc hs =>
    refine ⟨fun b _ => rfl, fun q hq => ?_⟩
    have := hq a (by simp [hpc, Pc.addrs])
    simp only [Common.satisfySequence]
    cases hh : (m.heap a).exp.common.seqHandle with
    | none => rfl
    | some h =>
      have := this h hh
      simp only [Seqs.satisfy]
      split <;> simp only [Seqs.set] <;> rw [if_neg (fun hx => this hx.symm)]
  all_goals first
    | exact ⟨fun b _ => rfl, fun q _ => rfl⟩
    | (refine ⟨fun b hb => ?_, fun q _ => rfl⟩
       refine hput _ _ _ (fun hx => ?_)
       subst hx
       simp_all [Pc.addrs])

namespace Finishes

variable {ce : CEnv V} {id : Nat}

/-- A call that runs alone reads only the expectations on its method and their sequences. -/
theorem frame {act : Act V} {m m' n : Mem V} {r : Except Panic V} (h : Finishes ce id act m r m')
    (hw : act.Within ce)
    (hA : ∀ a ∈ ce.vec act.meth, m.heap a = n.heap a)
    (hQ : ∀ a ∈ ce.vec act.meth, ∀ h, (m.heap a).exp.common.seqHandle = some h →
      m.seqs h.sid = n.seqs h.sid) :
    ∃ n', Finishes ce id act n r n' ∧
      (∀ b, m.heap b = n.heap b → m'.heap b = n'.heap b) ∧
      (∀ q, m.seqs q = n.seqs q → m'.seqs q = n'.seqs q) := by
  induction h generalizing n with
  | done h => exact ⟨n, .done h, fun b h => h, fun q h => h⟩
  | @step act m act1 m1 r m' hs hf ih =>
    obtain ⟨n1, h1, h2, h3⟩ := Act.step_frame (n := n) (fun a ha => hA a (hw.pc a ha))
      (fun a ha => hQ a (hw.pc a ha)) hs
    have hrel := Act.step_rel hs
    have hm := hrel.ident.1
    obtain ⟨n', g1, g2, g3⟩ := ih (n := n1) (hrel.within hw)
      (fun a ha => h2 a (hA a (hm ▸ ha)))
      (fun a ha h hh => h3 _ (hQ a (hm ▸ ha) h ((hrel.same a).handle ▸ hh)))
    exact ⟨n', .step h1 g1, fun b hb => g2 b (h2 b hb), fun q hq => g3 q (h3 q hq)⟩

/-- A call that runs alone writes only the expectations on its method and their sequences. -/
theorem writes {act : Act V} {m m' : Mem V} {r : Except Panic V} (h : Finishes ce id act m r m')
    (hw : act.Within ce) :
    (∀ b, b ∉ ce.vec act.meth → m'.heap b = m.heap b) ∧
    (∀ q, (∀ a ∈ ce.vec act.meth, ∀ h, (m.heap a).exp.common.seqHandle = some h → h.sid ≠ q) →
      m'.seqs q = m.seqs q) ∧
    (∀ b, (m'.heap b).exp.common.seqHandle = (m.heap b).exp.common.seqHandle) := by
  induction h with
  | done h => exact ⟨fun _ _ => rfl, fun _ _ => rfl, fun _ => rfl⟩
  | @step act m act1 m1 r m' hs hf ih =>
    have hrel := Act.step_rel hs
    have hm := hrel.ident.1
    obtain ⟨i1, i2, i3⟩ := ih (hrel.within hw)
    obtain ⟨l1, l2⟩ := hrel.writes
    refine ⟨fun b hb => ?_, fun q hq => ?_, fun b => (i3 b).trans (hrel.same b).handle⟩
    · rw [i1 b (hm ▸ hb), l1 b (fun hx => hb (hw.pc b hx))]
    · rw [i2 q (fun a ha h hh => hq a (hm ▸ ha) h ((hrel.same a).handle ▸ hh)),
        l2 q (fun a ha => hq a (hw.pc a ha))]

/-- The first step of a call that is not over. -/
theorem inv {act : Act V} {m m' : Mem V} {r : Except Panic V} (h : Finishes ce id act m r m')
    (hf : act.finished = false) :
    ∃ act1 m1, act.step ce id m = some (act1, m1) ∧ Finishes ce id act1 m1 r m' := by
  cases h with
  | done h => simp [Act.finished, h] at hf
  | step h hf => exact ⟨_, _, h, hf⟩

end Finishes

end Mockall
