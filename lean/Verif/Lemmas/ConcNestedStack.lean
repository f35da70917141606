import Verif.Props.ConcNested
import Verif.Props.ConcProgress

/-! # The calls of a thread form a stack -/

set_option linter.unusedSimpArgs false

namespace Mockall

variable {V : Type}

/-- A return function is only changed by the call that holds its lock. -/
theorem Act.Step.retLocked {env : CEnv V} {id : Nat} {act act' : Act V} {m m' : Mem V}
    (hs : Act.Step env id act m act' m') (b : Nat) (hb : act.pc.holdsR ≠ some b)
    (hst : ∃ r p, (m.heap b).exp.ret = .static r p) : (m'.heap b).exp.ret = (m.heap b).exp.ret := by
  obtain ⟨r, p, hst⟩ := hst
  have aux : ∀ (c : Cell V) (a : Nat), b ≠ a → (m.put a c).heap b = m.heap b := by
    intro c a h; simp [h]
  cases hs
  case runOk a r poison o v hpc hr ho hv =>
    have : b ≠ a := by rintro rfl; simp [hpc, Pc.holdsR] at hb
    simp [this]
  case runErr a r poison o v hpc hr ho hv =>
    have : b ≠ a := by rintro rfl; simp [hpc, Pc.holdsR] at hb
    simp [this]
  case runPanic a r poison o v hpc hr ho hv =>
    have : b ≠ a := by rintro rfl; simp [hpc, Pc.holdsR] at hb
    simp [this]
  case runFail a e r poison hpc hr free =>
    have : b ≠ a := by rintro rfl; simp [hpc, Pc.holdsR] at hb
    simp [this]
  case refMut a r o hpc hr ho =>
    have : b ≠ a := by rintro rfl; rw [hst] at hr; cases hr
    simp [this]
  all_goals
    simp only [Mem.put_heap]
    try split
    all_goals first
      | rfl
      | (subst_vars; rfl)

/-- A list is traversed from the left. -/
theorem prefix_induct {α : Type} (P : List α → Prop) (l : List α) (h0 : P [])
    (hs : ∀ pre x post, l = pre ++ x :: post → P pre → P (pre ++ [x])) : P l := by
  suffices H : ∀ (post pre : List α), l = pre ++ post → P pre → P l from H l [] rfl h0
  intro post
  induction post with
  | nil => intro pre h hp; simpa [h] using hp
  | cons x post ih =>
    intro pre h hp
    exact ih (pre ++ [x]) (by simp [h]) (hs pre x post h hp)

/-- All calls of a thread that are not over, except the last, are in user code. -/
def CState.Stack (s : CState V) : Prop :=
  ∀ (i j : Nat) (x y : Act V), s.acts[i]? = some x → s.acts[j]? = some y → i < j → x.tid = y.tid →
    x.finished = false → y.finished = false → ∃ a, x.user s.mem = some a

/-- Calls that execute a return function do so for an expectation that returns by value. -/
theorem StaticInv.nested {env : CEnv V} {s : CState V} (h : StaticInv s) {id : Nat} {ans : Answer V}
    {act act' : Act V} {m' : Mem V} (hact : s.acts[id]? = some act)
    (hs : Act.Step env id act (s.mem.scripted ans) act' m') :
    StaticInv { mem := s.mem.restored m', acts := s.acts.set id act' } := by
  have hsc : StaticInv { s with mem := s.mem.scripted ans } := by
    intro c x hx a ha
    obtain ⟨r, p, hr⟩ := h c x hx a ha
    exact ⟨r.scripted ans.value, p, by simp [Mem.scripted, Cell.scripted, hr, Ret.scripted]⟩
  intro c x hx a ha
  obtain ⟨r, p, hr⟩ := (hsc.step (s := { s with mem := s.mem.scripted ans }) hact hs) c x hx a ha
  simp only at hr
  simp only [Mem.restored, Cell.restored, hr]
  cases (s.mem.heap a).exp.ret <;> exact ⟨_, _, rfl⟩

theorem static_nrun (env : CEnv V) (m0 : Mem V) (sch : List (NSched V)) :
    StaticInv (nafter env m0 sch) :=
  CState.nrun_induct (P := StaticInv) (by simp [StaticInv])
    (fun _ meth tid args h _ => h.start meth tid args)
    (fun _ _ _ _ _ _ h hact _ hs => h.nested hact hs) sch

/-- A step of a call leaves the other calls in their user code. -/
theorem user_kept {env : CEnv V} {m0 : Mem V} {s : CState V} (hi : CInv m0 s) (hst : StaticInv s)
    {id : Nat} {ans : Answer V} {act act' : Act V} {m' : Mem V} (hact : s.acts[id]? = some act)
    (hs : Act.Step env id act (s.mem.scripted ans) act' m') {i : Nat} {x : Act V}
    (hx : s.acts[i]? = some x) (hne : i ≠ id) : x.user (s.mem.restored m') = x.user s.mem := by
  refine Act.user_congr (fun _ _ _ => rfl) ?_
  intro a hpc
  have hR : x.pc.holdsR = some a := by simp [hpc, Pc.holdsR]
  have hh := (hi.locks.r a i).mpr ⟨x, hx, hR⟩
  have hb : act.pc.holdsR ≠ some a := by
    intro h
    have := (hi.locks.r a id).mpr ⟨act, hact, h⟩
    rw [hh] at this
    injection this with this
    exact hne this
  obtain ⟨f, p, hret⟩ := hst i x hx a hR
  have := hs.retLocked a hb ⟨f.scripted ans.value, p, by
    simp [Mem.scripted, Cell.scripted, hret, Ret.scripted]⟩
  simp only [Mem.restored, Cell.restored, this]
  simp only [Mem.scripted, Cell.scripted, Ret.restored_scripted, hret]

/-- What holds of every state, with ranks that decrease from user code to what it calls. -/
structure NInv (env : CEnv V) (m0 : Mem V) (rank : Nat → Nat) (s : CState V) : Prop where
  base : CInv m0 s
  static : StaticInv s
  within : ∀ (c : Nat) (act : Act V), s.acts[c]? = some act → act.Within env
  stack : ∀ (i j : Nat) (x y : Act V), s.acts[i]? = some x → s.acts[j]? = some y → i < j →
    x.tid = y.tid → x.finished = false → y.finished = false →
    ∃ a, x.user s.mem = some a ∧ ∀ b ∈ env.vec y.meth, rank b < rank a

theorem NInv.step {env : CEnv V} {m0 : Mem V} {rank : Nat → Nat} {s : CState V}
    (h : NInv env m0 rank s) {id : Nat} {ans : Answer V} {act act' : Act V} {m' : Mem V}
    (hact : s.acts[id]? = some act) (hin : s.innermost id act.tid = true)
    (hs : Act.Step env id act (s.mem.scripted ans) act' m') :
    NInv env m0 rank { mem := s.mem.restored m', acts := s.acts.set id act' } := by
  refine ⟨h.base.nested hact hs, h.static.nested hact hs, ?_, ?_⟩
  · intro c x hx
    simp only [acts_set hact] at hx
    split at hx
    · cases hx; exact hs.within (h.within id act hact)
    · exact h.within c x hx
  · intro i j x y hx hy hij ht hfx hfy
    simp only [acts_set hact] at hx hy
    obtain ⟨i1, i2, i3⟩ := hs.ident
    by_cases hi : i = id
    · subst hi
      rw [if_pos rfl] at hx
      cases hx
      rw [if_neg (by omega)] at hy
      rcases CState.innermost_iff.mp hin j y hy hij with h | h
      · rw [hfy] at h; cases h
      · rw [i2] at ht; exact absurd ht.symm h
    · rw [if_neg hi] at hx
      have huk := user_kept h.base h.static hact hs hx hi
      rw [huk]
      by_cases hj : j = id
      · subst hj
        rw [if_pos rfl] at hy
        cases hy
        rw [i1]
        exact h.stack i j x act hx hact hij (by rw [ht, i2]) hfx hs.unfinished
      · rw [if_neg hj] at hy
        exact h.stack i j x y hx hy hij ht hfx hfy

/-- The innermost call of a thread that is in a call. -/
theorem innermost_exists {s : CState V} {i : Nat} {x : Act V} (hx : s.acts[i]? = some x)
    (hf : x.finished = false) : ∃ (j : Nat) (y : Act V), i ≤ j ∧ s.acts[j]? = some y ∧
      y.finished = false ∧ y.tid = x.tid ∧ s.innermost j x.tid = true := by
  have hlt : ∀ {n : Nat} {z : Act V}, s.acts[n]? = some z → n < s.acts.length := by
    intro n z hz
    rcases Nat.lt_or_ge n s.acts.length with h | h
    · exact h
    · rw [List.getElem?_eq_none h] at hz; cases hz
  suffices H : ∀ (n i : Nat) (y : Act V), s.acts.length - i = n → s.acts[i]? = some y →
      y.finished = false → y.tid = x.tid →
      ∃ (j : Nat) (y : Act V), i ≤ j ∧ s.acts[j]? = some y ∧
        y.finished = false ∧ y.tid = x.tid ∧ s.innermost j x.tid = true from
    H _ i x rfl hx hf rfl
  intro n
  induction n using Nat.strongRecOn with
  | _ n ih =>
    intro i y hn hy hfy ht
    by_cases hin : s.innermost i x.tid = true
    · exact ⟨i, y, Nat.le_refl _, hy, hfy, ht, hin⟩
    · rw [CState.innermost_iff] at hin
      simp only [Classical.not_forall, not_or, Classical.not_not] at hin
      obtain ⟨j, z, hz, hij, hfz, htz⟩ := hin
      have h1 := hlt hz
      obtain ⟨k, w, hk, hw⟩ := ih (s.acts.length - j) (by omega) j z rfl hz (by simpa using hfz) htz
      exact ⟨k, w, by omega, hw⟩

theorem NInv.start {env : CEnv V} {m0 : Mem V} {rank : Nat → Nat} {s : CState V}
    (h : NInv env m0 rank s) {meth tid : Nat} {args : List V} (hc : s.mayCall tid = true)
    (hrank : ∀ (c : Nat) (x : Act V), s.acts[c]? = some x → x.finished = false → x.tid = tid →
      s.innermost c tid = true → ∀ a, x.user s.mem = some a → ∀ b ∈ env.vec meth, rank b < rank a) :
    NInv env m0 rank { s with acts := s.acts ++ [Act.start env meth tid args] } := by
  refine ⟨h.base.start meth tid args, h.static.start meth tid args, ?_, ?_⟩
  · intro c act hact
    simp only [acts_push] at hact
    split at hact
    · cases hact
      exact ⟨by simp [Act.start, Pc.addrs], by simp [Act.start]⟩
    · exact h.within c act hact
  · intro i j x y hx hy hij ht hfx hfy
    simp only [acts_push] at hx hy
    have hlt : i < s.acts.length := by
      rcases Nat.lt_or_ge i s.acts.length with h | h
      · exact h
      · split at hy
        · omega
        · rw [List.getElem?_eq_none (by omega)] at hy; cases hy
    rw [if_neg (by omega)] at hx
    split at hy
    next hj =>
      cases hy
      simp only [Act.start] at ht ⊢
      have huser : ∀ (c : Nat) (z : Act V), s.acts[c]? = some z → z.finished = false → z.tid = tid →
          ∃ a, z.user s.mem = some a := by
        intro c z hz hfz htz
        rcases CState.mayCall_iff.mp hc z (List.mem_of_getElem? hz) with h | h | h
        · rw [hfz] at h; cases h
        · exact absurd htz h
        · exact h
      obtain ⟨k, z, hik, hz, hfz, htz, hin⟩ := innermost_exists hx hfx
      rw [ht] at htz hin
      obtain ⟨a', ha'⟩ := huser k z hz hfz htz
      have hlow := hrank k z hz hfz htz hin a' ha'
      by_cases hki : k = i
      · subst hki
        rw [hx] at hz; cases hz
        exact ⟨a', ha', hlow⟩
      · obtain ⟨a, ha, hra⟩ := h.stack i k x z hx hz (by omega) (by rw [ht, htz]) hfx hfz
        refine ⟨a, ha, fun b hb => ?_⟩
        have h1 := hlow b hb
        have h2 := hra a' ((h.within k z hz).pc a' (by
          rcases Act.user_holds ha' with ⟨rest, hpc⟩ | hpc <;> simp [hpc, Pc.addrs]))
        omega
    next hj => exact h.stack i j x y hx hy hij ht hfx hfy

end Mockall
