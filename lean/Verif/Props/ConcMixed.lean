import Verif.Lemmas.ConcMixed

/-! # Objects and static methods used together (C86) -/

namespace Mockall

open Spec.Mixed

variable {V : Type}

/-! ## Counts and ceilings -/

namespace Props

/-- **C86**.  Once all calls of methods of objects are over, an expectation of an object has counted the calls
dispatched to it, whoever made them: threads, predicates and closures of other objects or of static methods, or code
that runs while an expectation of a static method is being built. -/
theorem C86_count (env : UEnv V) (heap : Nat → Cell V) (fns : Nat → StaticFn V) (w : World V) (hf : Fresh heap)
    (sch : List (USched V)) (s : UState V) (hs : s = (UState.rest heap fns w).run env sch)
    (hidle : ∀ x ∈ s.calls, x.finished = true) (a : Nat) :
    (s.heap a).exp.common.times.count =
      ((heap a).exp.common.times.count + (s.calls.filter fun x => x.via == some a).length) % (usizeMax + 1) := by
  subst hs
  exact CInv.dispatched (UInv.run sch (UInv.rest env hf fns w)).base hidle a

/-- **C86**.  Then verification of this expectation is decided by the number of these calls. -/
theorem C86_verdict (env : UEnv V) (heap : Nat → Cell V) (fns : Nat → StaticFn V) (w : World V) (hf : Fresh heap)
    (sch : List (USched V)) (s : UState V) (hs : s = (UState.rest heap fns w).run env sch)
    (hidle : ∀ x ∈ s.calls, x.finished = true) (a : Nat) (info : FnInfo V) (total : Nat)
    (htotal : total = (heap a).exp.common.times.count + (s.calls.filter fun x => x.via == some a).length)
    (hfit : total ≤ usizeMax) (hpois : (s.heap a).exp.common.mpoison = false) :
    (s.heap a).exp.drop false info = .ok () ↔
      (heap a).exp.common.times.range.start ≤ total ∧ total < (heap a).exp.common.times.range.end_ := by
  subst hs
  exact CInv.verdict (UInv.run sch (UInv.rest env hf fns w)).base hidle a info total htotal hfit hpois

/-- **C86**.  At every moment the calls that an expectation of an object has answered do not exceed its maximum. -/
theorem C86_ceiling (env : UEnv V) (heap : Nat → Cell V) (fns : Nat → StaticFn V) (w : World V) (hf : Fresh heap)
    (sch : List (USched V)) (s : UState V) (hs : s = (UState.rest heap fns w).run env sch) (a max : Nat)
    (hmax : (heap a).exp.common.times.range.end_ = max + 1) (hbefore : (heap a).exp.common.times.count ≤ max)
    (hfit : (heap a).exp.common.times.count + (s.calls.filter fun x => x.via == some a).length ≤ usizeMax) :
    (heap a).exp.common.times.count +
      (s.calls.filter fun x => x.via == some a && match x.pc with | .done (.ok _) => true | _ => false).length ≤ max := by
  subst hs
  have := CInv.ceiling (UInv.run sch (UInv.rest env hf fns w)).base a max hmax hbefore hfit
  unfold CState.answered CState.dispatched at this
  rw [List.filter_filter] at this
  refine Nat.le_trans (Nat.le_of_eq ?_) this
  congr 2
  apply List.filter_congr
  intro x _
  rw [Bool.and_comm]
  rfl

/-- **C86**.  While nobody uses a static method, each of its expectations has counted the calls dispatched to it:
those recorded under its number, whoever made them and from wherever. -/
theorem C86_static_count (env : UEnv V) (heap : Nat → Cell V) (fns : Nat → StaticFn V) (w : World V) (hf : Fresh heap)
    (hnone : ∀ f k, (fns f).store.vec k = []) (hl : w.log = []) (sch : List (USched V)) (s : UState V)
    (hs : s = (UState.rest heap fns w).run env sch) (f : Nat) (k : Key) (e : Expectation V)
    (he : e ∈ (s.fns f).store.vec k) (idle : s.held f = none) :
    e.common.times.count = hits e.gid s.world.log % (usizeMax + 1) := by
  subst hs
  have hi := UInv.run sch (UInv.rest env hf fns w)
  have hb := UState.Balanced.run sch (UInv.rest env hf fns w) (.rest fns w hnone hl)
  obtain ⟨i, hi'⟩ := List.mem_iff_getElem?.1 he
  have hc := hb.count f k i e.gid e.common.times (by simp only [Store.sigs, List.getElem?_map]; erw [hi']; rfl)
  rw [one_false, Nat.add_zero] at hc
  · exact hc
  · rintro ⟨id, x, hx, rfl, hm, -⟩
    have h1 := hi.tinv.holds id x hx (SPc.mid_inside hm)
    have h2 : ((UState.rest heap fns w).run env sch).stats.held x.fn = none := idle
    rw [h2] at h1
    cases h1

/-- **C86**.  At every moment the calls that an expectation of a static method has let through are at most as many as
its window allows. -/
theorem C86_static_ceiling (env : UEnv V) (heap : Nat → Cell V) (fns : Nat → StaticFn V) (w : World V)
    (hf : Fresh heap) (hnone : ∀ f k, (fns f).store.vec k = []) (hl : w.log = []) (sch : List (USched V)) (s : UState V)
    (hs : s = (UState.rest heap fns w).run env sch) (f : Nat) (k : Key) (e : Expectation V)
    (he : e ∈ (s.fns f).store.vec k) (hlen : s.world.log.length < usizeMax) :
    passes e.gid s.world.log ≤ e.common.times.range.end_ - 1 := by
  subst hs
  have hb := UState.Balanced.run sch (UInv.rest env hf fns w) (.rest fns w hnone hl)
  obtain ⟨i, hi'⟩ := List.mem_iff_getElem?.1 he
  have hc := hb.ceil hlen f k i e.gid e.common.times (by simp only [Store.sigs, List.getElem?_map]; erw [hi']; rfl)
  change passes e.gid ((UState.rest heap fns w).run env sch).world.log + _ = 0 ∨
    passes e.gid ((UState.rest heap fns w).run env sch).world.log + _ < _ at hc
  omega

/-- **C86**.  At every moment at most one operation executes user code under the same lock: the predicate of an
expectation of an object, or its return closure, or anything of a static method.  So nothing of this is ever entered
again while it runs. -/
theorem C86_exclusive (env : UEnv V) (s : UState V) (h : Reached env s) :
    (∀ (i j a : Nat) (x y : Act V), s.calls[i]? = some x → s.calls[j]? = some y →
      (∃ r, x.pc = .matching a r) → (∃ r, y.pc = .matching a r) → i = j) ∧
    (∀ (i j a : Nat) (x y : Act V), s.calls[i]? = some x → s.calls[j]? = some y →
      x.pc = .run a → y.pc = .run a → i = j) ∧
    (∀ (i j : Nat) (x y : TAct V), s.ops[i]? = some x → s.ops[j]? = some y → x.fn = y.fn →
      x.user s.stats = true → y.user s.stats = true → i = j) := by
  obtain ⟨m0, h⟩ := h.inv
  refine ⟨?_, ?_, ?_⟩
  · rintro i j a x y hx hy ⟨r, hr⟩ ⟨r', hr'⟩
    have h1 := (h.base.locks.m a i).mpr ⟨x, hx, by rw [hr]; rfl⟩
    have h2 := (h.base.locks.m a j).mpr ⟨y, hy, by rw [hr']; rfl⟩
    rw [h1] at h2
    exact Option.some.inj h2
  · intro i j a x y hx hy hr hr'
    have h1 := (h.base.locks.r a i).mpr ⟨x, hx, by rw [hr]; rfl⟩
    have h2 := (h.base.locks.r a j).mpr ⟨y, hy, by rw [hr']; rfl⟩
    rw [h1] at h2
    exact Option.some.inj h2
  · intro i j x y hx hy hf ux uy
    have h1 := h.tinv.holds i x hx (TAct.user_inside ux)
    have h2 := h.tinv.holds j y hy (TAct.user_inside uy)
    rw [hf, h2] at h1
    exact (Option.some.inj h1).symm

end Props

/-! ## Distances -/

/-- How far all operations are from their ends. -/
def UState.measure (env : UEnv V) (s : UState V) : (Nat × Nat) × Nat := (s.stats.measure env.stat, s.objs.fuel)

/-- The order on these distances. -/
abbrev ULt : (Nat × Nat) × Nat → (Nat × Nat) × Nat → Prop := Prod.Lex MLt (· < ·)

theorem ULt.wf : WellFounded ULt := (Prod.lex ⟨MLt, MLt.wf⟩ Nat.lt_wfRel).wf

theorem ULt.irrefl (a : (Nat × Nat) × Nat) : ¬ ULt a a := by
  intro h
  cases h with
  | left _ _ h => exact absurd h (MLt.irrefl _)
  | right _ h => exact absurd h (Nat.lt_irrefl _)

theorem UInv.step_lt {env : UEnv V} {m0 : Mem V} {s : UState V} (h : UInv env m0 s) (p : Nat) (ans : Answer V) :
    s.step env (.step p ans) = s ∨ ULt ((s.step env (.step p ans)).measure env) (s.measure env) := by
  rcases UState.step_cases env s p ans with e | ⟨i, x, x', m', ho, hx, hin, hs, e⟩ | ⟨i, x, t, ho, hx, hin, hs, e⟩
  · exact .inl e
  · right
    rw [e]
    refine Prod.Lex.right _ ?_
    have hf := sum_set (fun act : Act V => act.pc.fuel) s.calls i x x' hx
    have hlt := hs.fuel
    simp only [CState.fuel, UState.objs]
    omega
  · right
    rw [e]
    exact Prod.Lex.left _ _ (h.tinv.stepAct_lt hx hs)

/-! ## Waiting -/

theorem mixed_outside {x : TAct V} : Outside x ↔ x.act.pc.early = true := by
  unfold Outside
  cases x.act.pc <;> simp [SPc.early]

theorem holdsM_unfinished {x : Act V} {a : Nat} (h : x.pc.holdsM = some a) : x.finished = false := by
  cases hp : x.pc <;> simp_all [Pc.holdsM, Act.finished]

theorem holdsR_unfinished {x : Act V} {a : Nat} (h : x.pc.holdsR = some a) : x.finished = false := by
  cases hp : x.pc <;> simp_all [Pc.holdsR, Act.finished]

theorem wantsMatcher_unfinished {x : Act V} {a : Nat} (h : WantsMatcher x a) : x.finished = false := by
  rcases h with ⟨_, h⟩ | ⟨_, h⟩ | ⟨_, h⟩ | ⟨_, h⟩ <;> simp [Act.finished, h]

theorem wantsClosure_unfinished {x : Act V} {a : Nat} (h : WantsClosure x a) : x.finished = false := by
  simp [Act.finished, show x.pc = .ret a from h]

theorem UInv.moves {env : UEnv V} {m0 : Mem V} {s : UState V} (h : UInv env m0 s) {p : Nat} (hp : Pending s p) :
    Moves env s p ∨ ∃ q, Waits s p q := by
  obtain ⟨v, hv, hf⟩ := hp
  by_cases hin : s.innermost p v.tid = true
  · by_cases hm : Moves env s p
    · exact .inl hm
    · right
      unfold Moves at hm
      simp only [Classical.not_forall, Classical.not_not] at hm
      obtain ⟨ans, hm⟩ := hm
      rcases look_cases hv with ⟨i, x, ho, hx, rfl⟩ | ⟨i, x, ho, hx, rfl⟩
      · have hn : x.step env.obj i (s.objs.mem.scripted ans) = none := by
          cases hs : x.step env.obj i (s.objs.mem.scripted ans) with
          | none => rfl
          | some r =>
            exfalso
            have hst : s.step env (.step p ans) = s.stepCall env i x ans := by
              simp only [UState.step, ho, hx]
              rw [if_pos hin]
            have hlt := (Act.step_rel (act' := r.1) (m' := r.2) hs).fuel
            rw [hst] at hm
            have : (s.stepCall env i x ans).calls = s.calls.set i r.1 := by simp only [UState.stepCall, hs]
            rw [hm] at this
            have hg : (s.calls.set i r.1)[i]? = some r.1 := List.getElem?_set_self (get_lt hx)
            rw [← this, hx] at hg
            cases hg
            omega
        rcases Act.step_waits hn with h' | ⟨a, d, hw, hd⟩ | ⟨a, d, hw, hd⟩ | ⟨a, ha, hno⟩
        · rw [show x.finished = false from hf] at h'; cases h'
        · obtain ⟨y, hy, -⟩ := (h.base.locks.m a d).mp hd
          obtain ⟨q, hq⟩ := h.ordered.hasCall d (get_lt hy)
          exact ⟨q, .matcher i d a x ho hx hw hd hq⟩
        · obtain ⟨y, hy, -⟩ := (h.base.locks.r a d).mp hd
          obtain ⟨q, hq⟩ := h.ordered.hasCall d (get_lt hy)
          exact ⟨q, .closure i d a x ho hx hw hd hq⟩
        · obtain ⟨r, pn, hret⟩ := h.static i x hx a ha
          exact absurd (by simp only [Mem.scripted, Cell.scripted, hret, Ret.scripted]) (hno (r.scripted ans.value) pn)
      · by_cases hw : x.act.pc.early = true ∧ s.held x.fn ≠ none
        · obtain ⟨j, hj⟩ := Option.ne_none_iff_exists'.1 hw.2
          obtain ⟨y, hy, -⟩ := h.tinv.held _ _ hj
          obtain ⟨q, hq⟩ := h.ordered.hasOp j (get_lt hy)
          exact ⟨q, .mutex i j x ho hx (mixed_outside.2 hw.1) hj hq⟩
        · exfalso
          cases hs : s.stats.stepAct env.stat i x ans with
          | none =>
            rcases TState.stepAct_none hs with e | e
            · rw [show x.finished = false from hf] at e; cases e
            · exact hw e
          | some t =>
            have hst : s.step env (.step p ans) = s.stepOp env i x ans := by
              simp only [UState.step, ho, hx]
              rw [if_pos hin]
            rcases h.step_lt (env := env) p ans with e | e
            · have hlt := h.tinv.stepAct_lt hx hs
              have : (s.stepOp env i x ans).stats = t := by
                unfold UState.stepOp; rw [hs]; rfl
              rw [← this, ← hst, hm] at hlt
              exact MLt.irrefl _ hlt
            · rw [hm] at e
              exact ULt.irrefl _ e
  · right
    have : ¬ ∀ (q : Nat) (w : View), p < q → look s q = some w → w.over = false → w.tid ≠ v.tid :=
      fun hc => hin (UState.innermost_iff.2 hc)
    simp only [Classical.not_forall, Classical.not_not] at this
    obtain ⟨q, w, lt, hq, fw, ht⟩ := this
    exact ⟨q, .inner v w hv hq lt ht.symm hf fw⟩

theorem UInv.waits_pending {env : UEnv V} {m0 : Mem V} {s : UState V} (h : UInv env m0 s) {p q : Nat}
    (hw : Waits s p q) : Pending s p ∧ Pending s q := by
  cases hw with
  | matcher i j a x hp hx wants held hq =>
    obtain ⟨y, hy, hh⟩ := (h.base.locks.m a j).mp held
    exact ⟨⟨_, look_call hp hx, wantsMatcher_unfinished wants⟩, ⟨_, look_call hq hy, holdsM_unfinished hh⟩⟩
  | closure i j a x hp hx wants held hq =>
    obtain ⟨y, hy, hh⟩ := (h.base.locks.r a j).mp held
    exact ⟨⟨_, look_call hp hx, wantsClosure_unfinished wants⟩, ⟨_, look_call hq hy, holdsR_unfinished hh⟩⟩
  | mutex i j x hp hx out held hq =>
    obtain ⟨y, hy, -, hin⟩ := h.tinv.held _ _ held
    exact ⟨⟨_, look_op hp hx, SPc.early_unfinished (mixed_outside.1 out)⟩, ⟨_, look_op hq hy, SPc.inside_unfinished hin⟩⟩
  | inner v w hp hq lt thread fp fq => exact ⟨⟨v, hp, fp⟩, ⟨w, hq, fq⟩⟩

/-! ## Deadlock -/

theorem mixed_dead_call {env : UEnv V} {m0 : Mem V} {s : UState V} (h : UInv env m0 s) {D : Nat → Prop}
    (hd : ∀ p, D p → ∃ q, D q ∧ Waits s p q) (meth tid : Nat) (args : List V) :
    ∀ p, D p → ∃ q, D q ∧ Waits (s.step env (.call meth tid args)) p q := by
  intro p hp
  obtain ⟨q, hq, hw⟩ := hd p hp
  refine ⟨q, hq, ?_⟩
  simp only [UState.step]
  split
  case isFalse => exact hw
  have ho : ∀ {n : Nat} {r : Ref}, s.order[n]? = some r → (s.order ++ [Ref.call s.calls.length])[n]? = some r := by
    intro n r hn
    rw [List.getElem?_append_left (get_lt hn)]; exact hn
  have hc : ∀ {n : Nat} {x : Act V}, s.calls[n]? = some x →
      (s.calls ++ [Act.start env.obj meth tid args])[n]? = some x := by
    intro n r hn
    rw [List.getElem?_append_left (get_lt hn)]; exact hn
  cases hw with
  | matcher i j a x hp hx wants held hq => exact .matcher i j a x (ho hp) (hc hx) wants held (ho hq)
  | closure i j a x hp hx wants held hq => exact .closure i j a x (ho hp) (hc hx) wants held (ho hq)
  | mutex i j x hp hx out held hq => exact .mutex i j x (ho hp) hx out held (ho hq)
  | inner v w hp hq lt thread fp fq =>
    refine .inner v w ?_ ?_ lt thread fp fq
    · rw [look_pushCall _ h.ordered, if_neg (by have := look_lt hp; omega), hp]
    · rw [look_pushCall _ h.ordered, if_neg (by have := look_lt hq; omega), hq]

theorem mixed_dead_op {env : UEnv V} {m0 : Mem V} {s : UState V} (h : UInv env m0 s) {D : Nat → Prop}
    (hd : ∀ p, D p → ∃ q, D q ∧ Waits s p q) (tid f : Nat) (op : SOp V) :
    ∀ p, D p → ∃ q, D q ∧ Waits (s.step env (.op tid f op)) p q := by
  intro p hp
  obtain ⟨q, hq, hw⟩ := hd p hp
  refine ⟨q, hq, ?_⟩
  simp only [UState.step]
  split
  case isFalse => exact hw
  have ho : ∀ {n : Nat} {r : Ref}, s.order[n]? = some r → (s.order ++ [Ref.op s.ops.length])[n]? = some r := by
    intro n r hn
    rw [List.getElem?_append_left (get_lt hn)]; exact hn
  have hc : ∀ {n : Nat} {x : TAct V}, s.ops[n]? = some x →
      (s.ops ++ [⟨f, ⟨tid, op, op.start⟩⟩])[n]? = some x := by
    intro n r hn
    rw [List.getElem?_append_left (get_lt hn)]; exact hn
  cases hw with
  | matcher i j a x hp hx wants held hq => exact .matcher i j a x (ho hp) hx wants held (ho hq)
  | closure i j a x hp hx wants held hq => exact .closure i j a x (ho hp) hx wants held (ho hq)
  | mutex i j x hp hx out held hq => exact .mutex i j x (ho hp) (hc hx) out held (ho hq)
  | inner v w hp hq lt thread fp fq =>
    refine .inner v w ?_ ?_ lt thread fp fq
    · rw [look_pushOp _ h.ordered, if_neg (by have := look_lt hp; omega), hp]
    · rw [look_pushOp _ h.ordered, if_neg (by have := look_lt hq; omega), hq]

theorem mixed_dead_step {env : UEnv V} {m0 : Mem V} {s : UState V} (h : UInv env m0 s) {D : Nat → Prop}
    (hd : ∀ p, D p → ∃ q, D q ∧ Waits s p q) (n : Nat) (ans : Answer V) :
    ∀ p, D p → ∃ q, D q ∧ Waits (s.step env (.step n ans)) p q := by
  have h' := h.step n ans
  rcases h.frame n ans with e | ⟨⟨v0, v0', h0, f0, hin, h0', e0⟩, hk⟩
  · rw [e]; exact hd
  rw [UState.innermost_iff] at hin
  rcases UState.step_cases env s n ans with e | ⟨i, x, x', m', ho, hx, -, hs, e⟩ | ⟨i, x, t, ho, hx, -, hs, e⟩
  · rw [e]; exact hd
  · -- a call that makes a step waits for nothing
    have hn : ¬ D n := by
      intro hD
      obtain ⟨q, -, hw⟩ := hd n hD
      cases hw with
      | matcher i' j a y hp hy wants held hq =>
        rw [ho] at hp; cases hp
        rw [hx] at hy; cases hy
        rcases wants with ⟨r, hw⟩ | ⟨r, hw⟩ | ⟨r, hw⟩ | ⟨r, hw⟩ <;>
          (have hheld : ((s.objs.mem.scripted ans).heap a).mheld = some j := held
           generalize s.objs.mem.scripted ans = m at *
           cases hs <;> simp_all)
      | closure i' j a y hp hy wants held hq =>
        rw [ho] at hp; cases hp
        rw [hx] at hy; cases hy
        obtain ⟨z, hz, hh⟩ := (h.base.locks.r a j).mp held
        obtain ⟨r, pn, hret⟩ := h.static j z hz a hh
        have hheld : ((s.objs.mem.scripted ans).heap a).rheld = some j := held
        have hst : ((s.objs.mem.scripted ans).heap a).exp.ret = .static (r.scripted ans.value) pn := by
          simp only [Mem.scripted, Cell.scripted, hret, Ret.scripted]
        have hpc : x.pc = .ret a := wants
        generalize s.objs.mem.scripted ans = m at *
        cases hs <;> simp_all
      | mutex i' j y hp => rw [ho] at hp; cases hp
      | inner v w hp hq lt thread fp fq =>
        rw [h0] at hp; cases hp
        exact hin q w lt hq fq thread.symm
    have hcall : ∀ {p j : Nat} {y : Act V}, D p → s.order[p]? = some (Ref.call j) → s.calls[j]? = some y →
        (s.step env (.step n ans)).calls[j]? = some y := by
      intro p j y hD hp hy
      rw [e]
      simp only
      rw [List.getElem?_set_ne, hy]
      rintro rfl
      exact hn (by rw [h.ordered.uniqCall ho hp]; exact hD)
    have hord : (s.step env (.step n ans)).order = s.order := by rw [e]
    have hops : (s.step env (.step n ans)).ops = s.ops := by rw [e]
    have hhe : (s.step env (.step n ans)).held = s.held := by rw [e]
    intro p hp
    obtain ⟨q, hq, hw⟩ := hd p hp
    refine ⟨q, hq, ?_⟩
    cases hw with
    | matcher j k a y hp' hy wants held hq' =>
      obtain ⟨z, hz, hh⟩ := (h.base.locks.m a k).mp held
      exact .matcher j k a y (by rw [hord]; exact hp') (hcall hp hp' hy) wants
        ((h'.base.locks.m a k).mpr ⟨z, hcall hq hq' hz, hh⟩) (by rw [hord]; exact hq')
    | closure j k a y hp' hy wants held hq' =>
      obtain ⟨z, hz, hh⟩ := (h.base.locks.r a k).mp held
      exact .closure j k a y (by rw [hord]; exact hp') (hcall hp hp' hy) wants
        ((h'.base.locks.r a k).mpr ⟨z, hcall hq hq' hz, hh⟩) (by rw [hord]; exact hq')
    | mutex j k y hp' hy out held hq' =>
      exact .mutex j k y (by rw [hord]; exact hp') (by rw [hops]; exact hy) out (by rw [hhe]; exact held)
        (by rw [hord]; exact hq')
    | inner v w hp' hq' lt thread fp fq =>
      refine .inner v w ?_ ?_ lt thread fp fq
      · rw [hk p (by rintro rfl; exact hn hp)]; exact hp'
      · rw [hk q (by rintro rfl; exact hn hq)]; exact hq'
  · obtain ⟨pc, hacts, hother, hst, hins, hout, hearly⟩ := TState.stepAct_shape hx hs
    -- an operation on a static method that makes a step only clears the poison flag
    have hmem : D n → x.act.pc = .clear ∧ pc = .tryWait := by
      intro hD
      obtain ⟨q, -, hw⟩ := hd n hD
      cases hw with
      | matcher i' j a y hp => rw [ho] at hp; cases hp
      | closure i' j a y hp => rw [ho] at hp; cases hp
      | mutex i' j y hp hy out held hq =>
        rw [ho] at hp; cases hp
        rw [hx] at hy; cases hy
        refine hearly (mixed_outside.1 out) ?_
        change s.held x.fn ≠ none
        rw [held]; simp
      | inner v w hp hq lt thread fp fq =>
        rw [h0] at hp; cases hp
        exact absurd thread.symm (hin q w lt hq fq)
    have hop : ∀ {j : Nat} {y : TAct V}, j ≠ i → s.ops[j]? = some y → (s.step env (.step n ans)).ops[j]? = some y := by
      intro j y hj hy
      rw [e]
      simp only [hacts]
      exact (List.getElem?_set_ne (fun e => hj e.symm)).trans hy
    have hself : (s.step env (.step n ans)).ops[i]? = some { x with act := { x.act with pc := pc } } := by
      rw [e]
      simp only [hacts]
      exact List.getElem?_set_self (get_lt hx)
    have hord : (s.step env (.step n ans)).order = s.order := by rw [e]
    have hcalls : (s.step env (.step n ans)).calls = s.calls := by rw [e]
    have hheap : (s.step env (.step n ans)).heap = s.heap := by rw [e]
    have hnew : D n → ∃ v, look (s.step env (.step n ans)) n = some v ∧ v.tid = v0.tid ∧ v.over = false := by
      intro hD
      have := look_op (s := s.step env (.step n ans)) (by rw [hord]; exact ho) hself
      rw [h0'] at this
      cases this
      refine ⟨_, h0', e0, ?_⟩
      simp [TAct.finished, SAct.finished, (hmem hD).2]
    intro p hp
    obtain ⟨q, hq, hw⟩ := hd p hp
    refine ⟨q, hq, ?_⟩
    cases hw with
    | matcher j k a y hp' hy wants held hq' =>
      exact .matcher j k a y (by rw [hord]; exact hp') (by rw [hcalls]; exact hy) wants (by rw [hheap]; exact held)
        (by rw [hord]; exact hq')
    | closure j k a y hp' hy wants held hq' =>
      exact .closure j k a y (by rw [hord]; exact hp') (by rw [hcalls]; exact hy) wants (by rw [hheap]; exact held)
        (by rw [hord]; exact hq')
    | mutex j k y hp' hy out held hq' =>
      obtain ⟨z, hz, ez, iz⟩ := h.tinv.held _ _ held
      have hki : k ≠ i := by
        rintro rfl
        have hqn := h.ordered.uniqOp hq' ho
        subst hqn
        have hz' : s.ops[k]? = some z := hz
        rw [hx] at hz'
        cases hz'
        rw [(hmem hq).1] at iz
        simp [SPc.inside, SPc.working] at iz
      have hheld : (s.step env (.step n ans)).held y.fn = some k := by
        have := h'.tinv.holds k z (hop hki hz) iz
        rw [ez] at this
        exact this
      by_cases eji : j = i
      · subst eji
        rw [hx] at hy
        cases hy
        have hpn := h.ordered.uniqOp hp' ho
        subst hpn
        exact .mutex j k _ (by rw [hord]; exact hp') hself (by right; right; exact (hmem hp).2) hheld
          (by rw [hord]; exact hq')
      · exact .mutex j k y (by rw [hord]; exact hp') (hop eji hy) out hheld (by rw [hord]; exact hq')
    | inner v w hp' hq' lt thread fp fq =>
      have hpn : p ≠ n := by
        rintro rfl
        rw [h0] at hp'; cases hp'
        exact hin q w lt hq' fq thread.symm
      by_cases eq : q = n
      · subst eq
        rw [h0] at hq'; cases hq'
        obtain ⟨v1, hv1, t1, f1⟩ := hnew hq
        exact .inner v v1 (by rw [hk p hpn]; exact hp') hv1 lt (by rw [t1]; exact thread) fp f1
      · exact .inner v w (by rw [hk p hpn]; exact hp') (by rw [hk q eq]; exact hq') lt thread fp fq

theorem mixed_dead_run {env : UEnv V} {m0 : Mem V} : ∀ (sch : List (USched V)) {s : UState V} (_ : UInv env m0 s)
    {D : Nat → Prop} (_ : ∀ p, D p → ∃ q, D q ∧ Waits s p q), ∀ p, D p → ∃ q, D q ∧ Waits (s.run env sch) p q
  | [], _, _, _, hd => hd
  | .call meth tid args :: sch, _, h, _, hd =>
    mixed_dead_run sch (h.startCall meth tid args) (mixed_dead_call h hd meth tid args)
  | .op tid f op :: sch, _, h, _, hd => mixed_dead_run sch (h.startOp tid f op) (mixed_dead_op h hd tid f op)
  | .step p ans :: sch, _, h, _, hd => mixed_dead_run sch (h.step p ans) (mixed_dead_step h hd p ans)

/-! ## Progress -/

/-- How far down the chain of waiting an operation is. -/
def callLevel (rank : Res → Nat) (x : Act V) : Nat :=
  match x.pc with
  | .matching a _ => 4 * rank (.exp a) + 1
  | .scan (a :: _) | .callFail a _ | .refFail a _ | .runFail a _ | .run a => 4 * rank (.exp a) + 2
  | .ret a => 4 * rank (.exp a) + 3
  | _ => 0

/-- The same for operations on static methods. -/
def opLevel (rank : Res → Nat) (x : TAct V) : Nat :=
  if x.act.pc.early then 4 * rank (.fn x.fn) + 2 else if x.act.pc.inside then 4 * rank (.fn x.fn) + 1 else 0

/-- The same for all. -/
def UState.level (rank : Res → Nat) (s : UState V) (p : Nat) : Nat :=
  match s.order[p]? with
  | some (.call i) => match s.calls[i]? with | some x => callLevel rank x | none => 0
  | some (.op i) => match s.ops[i]? with | some x => opLevel rank x | none => 0
  | none => 0

theorem level_call {rank : Res → Nat} {s : UState V} {p i : Nat} {x : Act V} (ho : s.order[p]? = some (Ref.call i))
    (hx : s.calls[i]? = some x) : s.level rank p = callLevel rank x := by
  simp only [UState.level, ho, hx]

theorem level_op {rank : Res → Nat} {s : UState V} {p i : Nat} {x : TAct V} (ho : s.order[p]? = some (Ref.op i))
    (hx : s.ops[i]? = some x) : s.level rank p = opLevel rank x := by
  simp only [UState.level, ho, hx]

theorem callLevel_le (rank : Res → Nat) (x : Act V) :
    callLevel rank x = 0 ∨ ∃ a ∈ x.pc.addrs, callLevel rank x ≤ 4 * rank (.exp a) + 3 := by
  obtain ⟨meth, tid, args, via, passed, pc⟩ := x
  cases pc with
  | scan rest =>
    cases rest with
    | nil => exact .inl rfl
    | cons a rest => exact .inr ⟨a, by simp [Pc.addrs], by simp [callLevel]⟩
  | matching a rest => exact .inr ⟨a, by simp [Pc.addrs], by simp [callLevel]⟩
  | callFail a e => exact .inr ⟨a, by simp [Pc.addrs], by simp [callLevel]⟩
  | ret a => exact .inr ⟨a, by simp [Pc.addrs], by simp [callLevel]⟩
  | run a => exact .inr ⟨a, by simp [Pc.addrs], by simp [callLevel]⟩
  | runFail a e => exact .inr ⟨a, by simp [Pc.addrs], by simp [callLevel]⟩
  | refFail a e => exact .inr ⟨a, by simp [Pc.addrs], by simp [callLevel]⟩
  | _ => exact .inl rfl

/-- Waiting goes down. -/
theorem UInv.level_lt {env : UEnv V} {m0 : Mem V} {s : UState V} (h : UInv env m0 s) {rank : Res → Nat}
    (hr : Descends env rank s) {p q : Nat} (hw : Waits s p q) : s.level rank q < s.level rank p := by
  cases hw with
  | matcher i j a x hp hx wants held hq =>
    obtain ⟨y, hy, hh⟩ := (h.base.locks.m a j).mp held
    rw [level_call hp hx, level_call hq hy]
    have hl : callLevel rank y = 4 * rank (.exp a) + 1 := by
      obtain ⟨meth, tid, args, via, passed, pc⟩ := y
      cases pc <;> simp [Pc.holdsM] at hh
      subst hh; rfl
    have hl' : callLevel rank x = 4 * rank (.exp a) + 2 := by
      rcases wants with ⟨r, hw⟩ | ⟨r, hw⟩ | ⟨r, hw⟩ | ⟨r, hw⟩ <;> simp [callLevel, hw]
    omega
  | closure i j a x hp hx wants held hq =>
    obtain ⟨y, hy, hh⟩ := (h.base.locks.r a j).mp held
    rw [level_call hp hx, level_call hq hy]
    have hl : callLevel rank y = 4 * rank (.exp a) + 2 := by
      obtain ⟨meth, tid, args, via, passed, pc⟩ := y
      cases pc <;> simp [Pc.holdsR] at hh <;> subst hh <;> rfl
    have hl' : callLevel rank x = 4 * rank (.exp a) + 3 := by
      simp [callLevel, show x.pc = .ret a from wants]
    omega
  | mutex i j x hp hx out held hq =>
    obtain ⟨y, hy, ey, hin⟩ := h.tinv.held _ _ held
    rw [level_op hp hx, level_op hq hy]
    have he : y.act.pc.early = false := by
      cases hc : y.act.pc.early with
      | false => rfl
      | true => rw [SPc.early_inside hc] at hin; cases hin
    simp [opLevel, mixed_outside.1 out, he, hin, ey]
  | inner v w hp hq lt thread fp fq =>
    obtain ⟨a, ha⟩ := h.stack p q v w lt hp hq thread fp fq
    have hlow : ∀ (r : Ref) (b : Res), s.order[q]? = some r → Needs env s r b → rank b < rank a :=
      fun r b => hr p q v w r a b lt hp hq thread fp fq ha
    -- the outer one
    have hup : 4 * rank a + 1 ≤ s.level rank p := by
      rcases look_cases hp with ⟨i, x, ho, hx, rfl⟩ | ⟨i, x, ho, hx, rfl⟩
      · rw [level_call ho hx]
        simp only at ha
        cases hu : x.user s.objs.mem with
        | none => simp [hu] at ha
        | some b =>
          simp only [hu, Option.map_some, Option.some.injEq] at ha
          subst ha
          rcases Act.user_holds hu with ⟨rest, hpc⟩ | hpc <;> simp [callLevel, hpc]
      · rw [level_op ho hx]
        simp only at ha
        split at ha
        · rename_i hu
          cases ha
          have hin := TAct.user_inside hu
          simp only [opLevel, hin, if_true]
          split <;> omega
        · cases ha
    -- the inner one
    rcases look_cases hq with ⟨i, x, ho, hx, rfl⟩ | ⟨i, x, ho, hx, rfl⟩
    · rw [level_call ho hx]
      rcases callLevel_le rank x with hz | ⟨b, hb, hle⟩
      · omega
      · have := hlow _ _ ho (.call i b x hx ((h.within i x hx).pc b hb))
        omega
    · rw [level_op ho hx]
      have := hlow _ _ ho (.op i x hx)
      unfold opLevel
      split
      · omega
      · split <;> omega

theorem UInv.progress {env : UEnv V} {m0 : Mem V} {s : UState V} (h : UInv env m0 s) {rank : Res → Nat}
    (hr : Descends env rank s) : ∀ (m p : Nat), s.level rank p ≤ m → Pending s p → ∃ q, Moves env s q
  | m, p, hm, hp => by
    rcases h.moves hp with hmv | ⟨q, hw⟩
    · exact ⟨p, hmv⟩
    · have := h.level_lt hr hw
      match m, hm with
      | 0, hm => omega
      | m + 1, hm => exact UInv.progress h hr m q (by omega) (h.waits_pending hw).2

theorem mixed_descends_step {env : UEnv V} {m0 : Mem V} {s : UState V} (h : UInv env m0 s) {rank : Res → Nat}
    (hr : Descends env rank s) (n : Nat) (ans : Answer V) : Descends env rank (s.step env (.step n ans)) := by
  rcases h.frame n ans with e | ⟨⟨v0, v0', h0, f0, hin, h0', e0⟩, hk⟩
  · rw [e]; exact hr
  rw [UState.innermost_iff] at hin
  have hneeds : ∀ r b, Needs env (s.step env (.step n ans)) r b → Needs env s r b := by
    intro r b hb
    rcases UState.step_cases env s n ans with e | ⟨i, x, x', m', ho, hx, -, hs, e⟩ | ⟨i, x, t, ho, hx, -, hs, e⟩
    · rw [e] at hb; exact hb
    · rw [e] at hb
      cases hb with
      | call j b y hy hb =>
        simp only [acts_set hx] at hy
        split at hy
        · rename_i ej
          cases hy
          subst ej
          exact .call j b x hx (by rw [← hs.ident.1]; exact hb)
        · exact .call j b y hy hb
      | op j y hy => exact .op j y hy
    · rw [e] at hb
      obtain ⟨pc, hacts, -⟩ := TState.stepAct_shape hx hs
      cases hb with
      | call j b y hy hb => exact .call j b y hy hb
      | op j y hy =>
        simp only [hacts, UState.stats] at hy
        rw [List.getElem?_set] at hy
        split at hy
        · rename_i ej
          subst ej
          split at hy
          · cases hy
            exact .op i x hx
          · cases hy
        · exact .op j y hy
  have hord : (s.step env (.step n ans)).order = s.order := by
    rcases UState.step_cases env s n ans with e | ⟨i, x, x', m', ho, hx, -, hs, e⟩ | ⟨i, x, t, ho, hx, -, hs, e⟩ <;> rw [e]
  intro p q v w r a b lt hp hq ht fv fw ha ho hb
  have hb' := hneeds r b hb
  rw [hord] at ho
  by_cases e : p = n
  · subst e
    rw [h0'] at hp
    cases hp
    rw [hk q (by omega)] at hq
    exact absurd (by rw [← ht, e0]) (hin q w lt hq fw)
  · rw [hk p e] at hp
    by_cases e' : q = n
    · subst e'
      rw [h0'] at hq
      cases hq
      exact hr p q v v0 r a b lt hp h0 (by rw [ht, e0]) fv f0 ha ho hb'
    · rw [hk q e'] at hq
      exact hr p q v w r a b lt hp hq ht fv fw ha ho hb'

namespace Props

/-- **C86**.  There are four reasons to wait and no other: an operation that is not over can make a step, or it waits
for one that is not over either. -/
theorem C86_waits (env : UEnv V) (s : UState V) (h : Reached env s) (p : Nat) (hp : Pending s p) :
    Moves env s p ∨ ∃ q, Waits s p q ∧ Pending s q := by
  obtain ⟨m0, h⟩ := h.inv
  exact (h.moves hp).imp_right fun ⟨q, hw⟩ => ⟨q, hw, (h.waits_pending hw).2⟩

/-- **C86**.  Deadlock: if each of a set of operations waits for one of them, then none of them is ever over, whatever
is scheduled and whatever user code comes to. -/
theorem C86_deadlock (env : UEnv V) (s : UState V) (h : Reached env s) (D : Nat → Prop)
    (hd : ∀ p, D p → ∃ q, D q ∧ Waits s p q) (sch : List (USched V)) (p : Nat) (hp : D p) :
    Pending (s.run env sch) p := by
  obtain ⟨m0, h⟩ := h.inv
  obtain ⟨q, -, hw⟩ := mixed_dead_run sch h hd p hp
  exact ((h.run sch).waits_pending hw).1

/-- **C86**.  An object and a static method in each other's user code: on one thread the return closure of expectation
`a` of an object begins an operation on static method `f`, while on another one user code of `f` calls a method of the
object that has come to `a` and needs its return closure.  None of the four is ever over. -/
theorem C86_cross (env : UEnv V) (s : UState V) (h : Reached env s) (p q p' q' a i i' j j' : Nat) (x y' : Act V)
    (y x' : TAct V) (hp : s.order[p]? = some (.call i)) (hx : s.calls[i]? = some x) (inA : x.pc = .run a)
    (hq : s.order[q]? = some (.op j)) (hy : s.ops[j]? = some y) (lt : p < q) (thread : x.tid = y.act.tid)
    (out : Outside y) (hp' : s.order[p']? = some (.op i')) (hx' : s.ops[i']? = some x')
    (hq' : s.order[q']? = some (.call j')) (hy' : s.calls[j']? = some y') (lt' : p' < q')
    (thread' : x'.act.tid = y'.tid) (fx' : x'.finished = false) (wants : WantsClosure y' a) (cross : y.fn = x'.fn)
    (sch : List (USched V)) : ∀ n ∈ [p, q, p', q'], Pending (s.run env sch) n := by
  intro n hn
  refine C86_deadlock env s h (· ∈ [p, q, p', q']) ?_ sch n hn
  obtain ⟨m0, h⟩ := h.inv
  have fx : x.finished = false := by simp [Act.finished, inA]
  have fy : y.finished = false := SPc.early_unfinished (mixed_outside.1 out)
  have fy' : y'.finished = false := wantsClosure_unfinished wants
  have hheld : (s.heap a).rheld = some i := (h.base.locks.r a i).mpr ⟨x, hx, by simp [inA, Pc.holdsR]⟩
  obtain ⟨b, hb⟩ := h.stack p' q' _ _ lt' (look_op hp' hx') (look_call hq' hy') thread' fx' fy'
  simp only at hb
  have hu : x'.user s.stats = true := by
    split at hb
    · rename_i hu; exact hu
    · cases hb
  have hheld' : s.held x'.fn = some i' := h.tinv.holds i' x' hx' (TAct.user_inside hu)
  intro m hm
  simp only [List.mem_cons, List.not_mem_nil, or_false] at hm
  rcases hm with rfl | rfl | rfl | rfl
  · exact ⟨q, by simp, .inner _ _ (look_call hp hx) (look_op hq hy) lt thread fx fy⟩
  · exact ⟨p', by simp, .mutex j i' y hq hy out (by rw [cross]; exact hheld') hp'⟩
  · exact ⟨q', by simp, .inner _ _ (look_op hp' hx') (look_call hq' hy') lt' thread' fx' fy'⟩
  · exact ⟨p, by simp, .closure j' i a y' hq' hy' wants hheld hp⟩

/-- **C86**.  If user code only begins operations that need what has lower rank than what the user code belongs to, in
whatever way expectations of objects and static methods are ranked, then there is no deadlock: as long as some
operation is not over, one can make a step. -/
theorem C86_progress (env : UEnv V) (s : UState V) (h : Reached env s) (rank : Res → Nat) (hr : Descends env rank s)
    (p : Nat) (hp : Pending s p) : ∃ q, Moves env s q := by
  obtain ⟨m0, h⟩ := h.inv
  exact h.progress hr _ p (Nat.le_refl _) hp

/-- **C86**.  Then all operations can be brought to their ends, whatever user code comes to. -/
theorem C86_completes (env : UEnv V) (s : UState V) (h : Reached env s) (rank : Res → Nat) (hr : Descends env rank s)
    (ans : UState V → Nat → Answer V) : ∃ ps, ∀ p, ¬ Pending (follow env ans ps s) p := by
  obtain ⟨m0, h⟩ := h.inv
  have : ∀ (m : (Nat × Nat) × Nat) (s : UState V), UInv env m0 s → Descends env rank s → s.measure env = m →
      ∃ ps, ∀ p, ¬ Pending (follow env ans ps s) p := by
    intro m
    induction m using ULt.wf.induction with
    | _ m ih =>
      intro s h hr hm
      by_cases hp : ∃ p, Pending s p
      · obtain ⟨p, hp⟩ := hp
        obtain ⟨q, hq⟩ := h.progress hr _ p (Nat.le_refl _) hp
        rcases h.step_lt (env := env) q (ans s q) with e | e
        · exact absurd e (hq _)
        · rw [hm] at e
          obtain ⟨ps, hps⟩ := ih _ e _ (h.step _ _) (mixed_descends_step h hr _ _) rfl
          exact ⟨q :: ps, hps⟩
      · exact ⟨[], fun p hp' => hp ⟨p, hp'⟩⟩
  exact this _ s h hr rfl

end Props

theorem mixed_after_shift (env : UEnv V) (pick : Nat → Nat × Answer V) (s : UState V) (m n : Nat) :
    Spec.Mixed.after env pick s (m + n) = Spec.Mixed.after env (fun i => pick (m + i)) (Spec.Mixed.after env pick s m) n := by
  induction n with
  | zero => rfl
  | succ n ih => rw [← Nat.add_assoc]; simp only [Spec.Mixed.after]; rw [ih]

theorem mixed_after_inv {env : UEnv V} {m0 : Mem V} {s : UState V} (h : UInv env m0 s) (pick : Nat → Nat × Answer V) :
    ∀ n, UInv env m0 (Spec.Mixed.after env pick s n)
  | 0 => h
  | n + 1 => (mixed_after_inv h pick n).step _ _

namespace Props

/-- **C86**.  No operation runs for ever: if no new ones are begun, then from some point on nothing changes any more,
whatever is scheduled and whatever user code comes to. -/
theorem C86_terminates (env : UEnv V) (s : UState V) (h : Reached env s) (pick : Nat → Nat × Answer V) :
    ∃ N, ∀ n, N ≤ n → Spec.Mixed.after env pick s n = Spec.Mixed.after env pick s N := by
  obtain ⟨m0, h⟩ := h.inv
  have : ∀ (m : (Nat × Nat) × Nat) (s : UState V) (pick : Nat → Nat × Answer V), UInv env m0 s → s.measure env = m →
      ∃ N, ∀ n, N ≤ n → Spec.Mixed.after env pick s n = Spec.Mixed.after env pick s N := by
    intro m
    induction m using ULt.wf.induction with
    | _ m ih =>
      intro s pick h hm
      by_cases hall : ∀ n, Spec.Mixed.after env pick s n = s
      · exact ⟨0, fun n _ => by rw [hall n, hall 0]⟩
      · obtain ⟨n, hn⟩ := Classical.not_forall.1 hall
        have hfirst : ∃ k, Spec.Mixed.after env pick s k = s ∧ Spec.Mixed.after env pick s (k + 1) ≠ s := by
          clear ih hm hall
          induction n with
          | zero => exact absurd rfl hn
          | succ n ihn =>
            by_cases e : Spec.Mixed.after env pick s n = s
            · exact ⟨n, e, hn⟩
            · exact ihn e
        obtain ⟨k, hk, hk1⟩ := hfirst
        have hlt : ULt ((Spec.Mixed.after env pick s (k + 1)).measure env) m := by
          rcases (mixed_after_inv h pick k).step_lt (env := env) (pick k).1 (pick k).2 with e | e
          · exact absurd (e.trans hk) hk1
          · rw [hk, hm] at e
            simp only [Spec.Mixed.after]
            rw [hk]
            exact e
        obtain ⟨N, hN⟩ := ih _ hlt _ (fun i => pick (k + 1 + i)) (mixed_after_inv h pick (k + 1)) rfl
        refine ⟨k + 1 + N, fun n hn => ?_⟩
        have := hN (n - (k + 1)) (by omega)
        rw [← mixed_after_shift, ← mixed_after_shift] at this
        rwa [show k + 1 + (n - (k + 1)) = n by omega] at this
  exact this _ s pick h rfl

end Props

end Mockall
