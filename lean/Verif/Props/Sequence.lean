import Verif.Lemmas.SeqSpec
import Verif.Props.Return

/-! # Sequences (C19-C23)

The theorems speak about whole programs over any number of objects, static functions and sequences.

* `made[g]` is the list of builder calls made on the `g`-th expectation (see `made_ops`), so
  `slot made sid g` is the position of expectation `g` in sequence `sid` according to the user's program.
* The log lists the calls dispatched to expectations.  `passed` says the call got through the checks; a call
  that returns normally is always logged as passed (`ok_passed`). -/

set_option linter.unusedSimpArgs false

namespace Mockall

open Spec

variable {V : Type}

/-- The calls dispatched during a program. -/
def logOf (env : Env V) (sts : List (MethodInfo V)) (ops : List (Op V)) : List (Hit V) :=
  (Sys.run env ops (Sys.init sts)).2.world.log

/-- The builder calls made during a program on each expectation. -/
def madeOf (env : Env V) (sts : List (MethodInfo V)) (ops : List (Op V)) : List (List (Build V)) :=
  (Sys.run env ops (Sys.init sts)).2.world.made

/-! ## What the log and the list of builder calls are -/

/-- A call that returns normally has been dispatched to an expectation and has been logged as passed. -/
theorem ok_passed (env : Env V) (s : Sys V) (op : Op V) (v : V) (h : (s.step env op).1 = .value (.ok v)) :
    ∃ g tid args u, (s.step env op).2.world.log = s.world.log ++ [⟨g, tid, args, true, u⟩] ∧
      op.callInfo? = some (tid, args, u) := by
  have hE := step_evo env s op
  generalize (s.step env op).1 = ob at hE h
  generalize (s.step env op).2.world = w' at hE
  generalize (s.step env op).2.all = l' at hE
  cases hE with
  | quiet _ ho => obtain ⟨p, hp⟩ := ho _ h; simp at hp
  | expect _ hr => rw [h] at hr; simp at hr
  | pred _ _ _ ho => rw [h] at ho; simp at ho
  | @hit tid args upd e _ _ info hc hm h1 ho =>
    rw [h] at ho
    simp at ho
    rcases Expectation.call_cases ⟨env.nightly, tid, env.dbg, upd⟩ info args e s.world with ⟨p, hp, he⟩ | ⟨hp, he⟩
    · rw [he] at ho; simp at ho
    · obtain ⟨b, hb, hw⟩ := Expectation.call_world ⟨env.nightly, tid, env.dbg, upd⟩ info args e s.world
      have : b = true := hb.mpr hp
      subst this
      exact ⟨e.gid, tid, args, upd, by rw [hw], hc⟩

theorem step_made_call (env : Env V) (s : Sys V) (op : Op V) (h : op.builds? = none) :
    (s.step env op).2.world.made = s.world.made := by
  have hE := step_evo env s op
  generalize (s.step env op).1 = ob at hE
  generalize (s.step env op).2.world = w' at hE
  generalize (s.step env op).2.all = l' at hE
  cases hE with
  | quiet _ ho => rfl
  | expect hb hr => rw [h] at hb; simp at hb
  | pred _ _ _ ho => rfl
  | @hit tid args upd e _ _ info hc hm h1 ho =>
    obtain ⟨b, hb, hw⟩ := Expectation.call_world ⟨env.nightly, tid, env.dbg, upd⟩ info args e s.world
    rw [hw]

theorem Expectations.expect_made (nightly : Bool) (info : FnInfo V) (bs : List (Build V)) (es : List (Expectation V))
    (w : World V) (h : (Expectations.expect nightly info bs es w).1 = .ok ()) :
    (Expectations.expect nightly info bs es w).2.2.made = w.made ++ [bs] := by
  simp only [Expectations.expect] at h ⊢
  rcases hb : Expectation.builds bs (Expectation.new nightly info w.fresh) w.seqs with ⟨r, e, q⟩
  rw [hb] at h
  simp only at h
  subst h
  have := Expectation.builds_chain hb
  simp only [Expectation.new, List.nil_append] at this
  rw [this]

theorem Store.expect_made (nightly : Bool) (mi : MethodInfo V) (k : Key) (bs : List (Build V)) (st : Store V)
    (w : World V) (h : (st.expect nightly mi k bs w).1 = .ok ()) :
    (st.expect nightly mi k bs w).2.2.made = w.made ++ [bs] := by
  cases st with
  | concrete es => exact Expectations.expect_made nightly (mi.fn k) bs es w h
  | generic m => exact Expectations.expect_made nightly (mi.fn k) bs ((GMap.get m k).getD []) w h

theorem step_made_expect (env : Env V) (s : Sys V) (op : Op V) (bs : List (Build V)) (h : op.builds? = some bs)
    (ho : (s.step env op).1 = .unit (.ok ()) false) :
    (s.step env op).2.world.made = s.world.made ++ [bs] := by
  cases op with
  | expect o m k bs' =>
    simp [Op.builds?] at h
    subst h
    simp only [Sys.step] at ho ⊢
    rcases hobj : s.objs[o]? with _ | _ | obj
    · simp [hobj] at ho
    · simp [hobj] at ho
    · simp only [hobj] at ho ⊢
      unfold Obj.expect at ho ⊢
      rcases hm : obj[m]? with _ | sl
      · simp [hm] at ho
      · simp only [hm, Obs.unit.injEq, and_true] at ho ⊢
        exact Store.expect_made _ _ _ _ _ _ ho
  | sexpect f k bs' =>
    simp [Op.builds?] at h
    subst h
    simp only [Sys.step] at ho ⊢
    rcases hobj : s.statics[f]? with _ | sf
    · simp [hobj] at ho
    · simp only [hobj, StaticFn.expect] at ho ⊢
      split at ho
      · simp at ho
      · rename_i hp
        rw [if_neg hp]
        simp only [Obs.unit.injEq, and_true] at ho
        exact Store.expect_made _ _ _ _ _ _ ho
  | _ => simp [Op.builds?] at h

/-- In a program in which every `expect` statement completes, `made` lists the builder calls of the `expect`
statements of the program text, in order. -/
theorem made_ops (env : Env V) (sts : List (MethodInfo V)) (ops : List (Op V))
    (hok : ∀ a op b, ops = a ++ op :: b → op.builds?.isSome →
      nextObs env sts a op = .unit (.ok ()) false) :
    madeOf env sts ops = ops.filterMap Op.builds? := by
  induction ops using nat_snoc_induct with
  | nil => rfl
  | snoc ops op ih =>
    have ih := ih fun a o b hab => hok a o (b ++ [op]) (by simp [hab])
    unfold madeOf at ih ⊢
    rw [run_snoc, List.filterMap_append]
    cases hb : op.builds? with
    | none => rw [step_made_call _ _ _ hb, ih]; simp [hb]
    | some bs =>
      rw [step_made_expect _ _ _ bs hb (hok ops op [] rfl (by simp [hb])), ih]
      simp [hb]

/-! ## C22: sequences are independent -/

/-- **C22**, refinement: after any program, the calls dispatched to the members of a sequence have been
accepted or rejected exactly as an automaton decides that reads the calls to members of that sequence
*alone*: no other call, and nothing about other sequences, enters. -/
theorem C22_refinement (env : Env V) (sts : List (MethodInfo V)) (ops : List (Op V)) (sid : Nat)
    (hlen : (logOf env sts ops).length ≤ usizeMax) :
    let made := madeOf env sts ops
    let calls := (logOf env sts ops).filter fun h => (slot made sid h.gid).isSome
    calls.map (·.passed) = (SeqSt.run (slot made sid) (countWin made) (calls.map (·.gid))).flags := by
  have := (seqInv_run env sts ops).run hlen sid
  intro made calls
  unfold seqSt at this
  exact (congrArg SeqSt.flags this).symm

/-- **C22**, two programs: if the members of a sequence are called in the same order in two programs, and have
the same positions and counts there, the same calls are accepted, whatever else the programs do
with other expectations and other sequences. -/
theorem C22_independent (env env' : Env V) (sts sts' : List (MethodInfo V)) (ops ops' : List (Op V)) (sid : Nat)
    (hlen : (logOf env sts ops).length ≤ usizeMax) (hlen' : (logOf env' sts' ops').length ≤ usizeMax) :
    let made := madeOf env sts ops
    let made' := madeOf env' sts' ops'
    let calls := (logOf env sts ops).filter fun h => (slot made sid h.gid).isSome
    let calls' := (logOf env' sts' ops').filter fun h => (slot made' sid h.gid).isSome
    calls.map (·.gid) = calls'.map (·.gid) →
    (∀ h ∈ calls, slot made sid h.gid = slot made' sid h.gid ∧ countWin made h.gid = countWin made' h.gid) →
    calls.map (·.passed) = calls'.map (·.passed) := by
  intro made made' calls calls' hg hsame
  have h1 := C22_refinement env sts ops sid hlen
  have h2 := C22_refinement env' sts' ops' sid hlen'
  change calls.map (·.passed) = _ at h1
  change calls'.map (·.passed) = _ at h2
  rw [h1, h2, SeqSt.run_congr (pos' := slot made' sid) (win' := countWin made')]
  · rw [← hg]
  · intro g hgm
    obtain ⟨h, hh, rfl⟩ := List.mem_map.mp hgm
    exact hsame h hh

/-- The verdict on one call to a member. -/
theorem member_verdict {env : Env V} {sts : List (MethodInfo V)} {ops : List (Op V)} {sid : Nat}
    (hlen : (logOf env sts ops).length ≤ usizeMax) {a b : List (Hit V)} {h : Hit V}
    (hab : logOf env sts ops = a ++ h :: b) {k : Nat} (hk : slot (madeOf env sts ops) sid h.gid = some k) :
    h.passed = true ↔ k = (seqSt (madeOf env sts ops) sid a).level ∧
      hits h.gid a + 1 < (countWin (madeOf env sts ops) h.gid).end_ := by
  have hr := C22_refinement env sts ops sid hlen
  simp only [hab, List.filter_append, List.filter_cons, hk, Option.isSome_some, ↓reduceIte, List.map_append,
    List.map_cons] at hr
  have := SeqSt.run_mid _ _ _ _ _ _ _ _ hr.symm (by simp)
  rw [this, hk]
  have hc := memberHits_count (sid := sid) (g := h.gid) (made := madeOf env sts ops) (by simp [hk]) a
  unfold memberHits at hc
  rw [hc]
  simp only [Option.some.injEq]
  rfl

theorem seqSt_level_le (made : List (List (Build V))) (sid : Nat) (a b : List (Hit V)) :
    (seqSt made sid a).level ≤ (seqSt made sid (a ++ b)).level := by
  unfold seqSt memberHits
  rw [List.filter_append, List.map_append]
  exact (SeqSt.run_append _ _ _ _).1

theorem seqSt_finished {made : List (List (Build V))} {sid j : Nat} {a : List (Hit V)}
    (hj : j < (seqSt made sid a).level) :
    ∃ g, slot made sid g = some j ∧ (countWin made g).start ≤ hits g a ∧ 0 < hits g a := by
  obtain ⟨g, h1, h2, h3⟩ := SeqSt.run_finished _ _ _ _ hj
  rw [memberHits_count (by simp [h1])] at h2 h3
  exact ⟨g, h1, h2, h3⟩

/-! ## C19: order safety -/

/-- **C19**, first half: when a call to the expectation at position `k` of a sequence is accepted, every
earlier position belongs to an expectation that has already received its full count of calls. -/
theorem C19_complete (env : Env V) (sts : List (MethodInfo V)) (ops : List (Op V)) (sid : Nat)
    (hlen : (logOf env sts ops).length ≤ usizeMax) (a b : List (Hit V)) (h : Hit V)
    (hab : logOf env sts ops = a ++ h :: b) (hp : h.passed = true) (k : Nat)
    (hk : slot (madeOf env sts ops) sid h.gid = some k) :
    ∀ j < k, ∃ g, slot (madeOf env sts ops) sid g = some j ∧
      (countWin (madeOf env sts ops) g).start ≤ hits g a ∧ 0 < hits g a := by
  intro j hj
  have := (member_verdict hlen hab hk).mp hp
  exact seqSt_finished (by omega)

/-- **C19**, first half, read from the side of the earlier member: the expectation `g` that was placed before
`h.gid` has received its full count. -/
theorem C19_before (env : Env V) (sts : List (MethodInfo V)) (ops : List (Op V)) (sid : Nat)
    (hlen : (logOf env sts ops).length ≤ usizeMax) (a b : List (Hit V)) (h : Hit V)
    (hab : logOf env sts ops = a ++ h :: b) (hp : h.passed = true) (g j k : Nat)
    (hk : slot (madeOf env sts ops) sid h.gid = some k) (hj : slot (madeOf env sts ops) sid g = some j)
    (hjk : j < k) : (countWin (madeOf env sts ops) g).start ≤ hits g a ∧ 0 < hits g a := by
  obtain ⟨g', h1, h2, h3⟩ := C19_complete env sts ops sid hlen a b h hab hp k hk j hjk
  rw [slot_inj hj h1]
  exact ⟨h2, h3⟩

/-- **C19**, second half: after a call to position `k` was accepted, no call to an earlier position is. -/
theorem C19_after (env : Env V) (sts : List (MethodInfo V)) (ops : List (Op V)) (sid : Nat)
    (hlen : (logOf env sts ops).length ≤ usizeMax) (a m b : List (Hit V)) (h h' : Hit V)
    (hab : logOf env sts ops = a ++ h :: (m ++ h' :: b)) (hp : h.passed = true) (j k : Nat)
    (hk : slot (madeOf env sts ops) sid h.gid = some k) (hj : slot (madeOf env sts ops) sid h'.gid = some j)
    (hjk : j < k) : h'.passed = false := by
  have h1 := (member_verdict hlen hab hk).mp hp
  have hab' : logOf env sts ops = (a ++ h :: m) ++ h' :: b := by rw [hab]; simp
  have h2 := seqSt_level_le (madeOf env sts ops) sid a (h :: m)
  rcases hb : h'.passed with _ | _
  · rfl
  · have := (member_verdict hlen hab' hj).mp hb
    omega

/-- **C19** in terms of what the caller observes: if the next call returns normally, and was dispatched to
position `k` of sequence `sid`, then every expectation placed earlier in that sequence has got
its full count. -/
theorem C19_observed (env : Env V) (sts : List (MethodInfo V)) (ops : List (Op V)) (op : Op V) (sid : Nat) (v : V)
    (hlen : (logOf env sts ops).length < usizeMax) (hv : nextObs env sts ops op = .value (.ok v))
    (h : Hit V) (hl : logOf env sts (ops ++ [op]) = logOf env sts ops ++ [h]) (k : Nat)
    (hk : slot (madeOf env sts ops) sid h.gid = some k) (g j : Nat)
    (hj : slot (madeOf env sts ops) sid g = some j) (hjk : j < k) :
    (countWin (madeOf env sts ops) g).start ≤ hits g (logOf env sts ops) := by
  obtain ⟨g', tid, args, u, h1, h2⟩ := ok_passed env _ op v hv
  have hb : op.builds? = none := by cases op <;> simp_all [Op.callInfo?, Op.builds?]
  have hm : madeOf env sts (ops ++ [op]) = madeOf env sts ops := by
    unfold madeOf
    rw [run_snoc, step_made_call _ _ _ hb]
  have hp : h.passed = true := by
    unfold logOf at hl
    rw [run_snoc, h1] at hl
    have := List.append_inj_right' hl rfl
    simp at this
    rw [← this]
  have := C19_before env sts (ops ++ [op]) sid (by rw [hl]; simp; omega) _ [] h hl hp g j k
    (by rw [hm]; exact hk) (by rw [hm]; exact hj) hjk
  rw [hm] at this
  exact this.1

/-! ## C20: the language of a sequence -/

/-- **C20**: let every expectation placed in `sid` be placed there once, with an exact positive count.  Then the
calls dispatched to the members of `sid` during a program were all accepted iff they form a prefix of: the
first member as often as it asks, then the second as often as it asks, and so on. -/
theorem C20_language (env : Env V) (sts : List (MethodInfo V)) (ops : List (Op V)) (sid : Nat)
    (hlen : (logOf env sts ops).length ≤ usizeMax)
    (honce : ∀ c ∈ madeOf env sts ops, JoinOnce sid c)
    (hcount : ∀ g, (slot (madeOf env sts ops) sid g).isSome →
      ∃ n, 0 < n ∧ countWin (madeOf env sts ops) g = ⟨n, n + 1⟩) :
    let made := madeOf env sts ops
    let calls := (logOf env sts ops).filter fun h => (slot made sid h.gid).isSome
    (∀ h ∈ calls, h.passed = true) ↔ calls.map (·.gid) <+: blocks (members made sid) := by
  intro made calls
  have hr := C22_refinement env sts ops sid hlen
  change calls.map (·.passed) = SeqSt.flags (SeqSt.run (slot made sid) (countWin made) (calls.map (·.gid))) at hr
  rw [← (SeqSt.language (slot made sid) (countWin made) (members made sid) (slot_members honce) ?_
    (calls.map (·.gid)) ?_).1, ← hr]
  · simp
  · intro m hm
    simp only [members, List.mem_filterMap] at hm
    obtain ⟨g, _, hg⟩ := hm
    split at hg
    · rename_i hs
      simp at hg
      subst hg
      obtain ⟨n, hn, hw⟩ := hcount g hs
      simp only [made, hw]
      exact ⟨trivial, hn⟩
    · simp at hg
  · intro g hg
    obtain ⟨h, hh, rfl⟩ := List.mem_map.mp hg
    exact (List.mem_filter.mp hh).2

/-- **C20** continued: `members` lists the members in the order of their positions. -/
theorem C20_members (env : Env V) (sts : List (MethodInfo V)) (ops : List (Op V)) (sid : Nat)
    (honce : ∀ c ∈ madeOf env sts ops, JoinOnce sid c) (g p : Nat) :
    slot (madeOf env sts ops) sid g = some p ↔
      (members (madeOf env sts ops) sid)[p]? = some (g, (countWin (madeOf env sts ops) g).start) := by
  rw [slot_members honce]
  constructor
  · rintro ⟨n, hn⟩
    have := List.mem_of_getElem? hn
    simp only [members, List.mem_filterMap] at this
    obtain ⟨x, _, hx⟩ := this
    split at hx <;> simp at hx
    rw [hn, ← hx.1, ← hx.2]
  · intro h; exact ⟨_, h⟩

/-! ## C21: exact counts and positions -/

theorem Expectation.builds_append (bs : List (Build V)) (b : Build V) (e e' : Expectation V) (q q' : Seqs)
    (h : e.builds bs q = (.ok (), e', q')) :
    e.builds (bs ++ [b]) q = match e'.build b q' with
      | (.error p, e2, q2) => (.error p, e2, q2)
      | (.ok (), e2, q2) => (.ok (), { e2 with chain := e'.chain ++ [b] }, q2) := by
  induction bs generalizing e q with
  | nil =>
    simp [Expectation.builds] at h
    obtain ⟨rfl, rfl⟩ := h
    simp only [List.nil_append, Expectation.builds]
    rcases e.build b q with ⟨_ | _, e1, q1⟩ <;> rfl
  | cons x bs ih =>
    simp only [Expectation.builds] at h
    simp only [List.cons_append, Expectation.builds]
    rcases hx : e.build x q with ⟨_ | _, e1, q1⟩
    · rw [hx] at h; simp at h
    · rw [hx] at h
      exact ih _ _ h

/-- The statement `expect_f().b1().b2()...` on a function. -/
def Callee.expect : Callee → List (Build V) → Op V
  | .inst o m k, bs => .expect o m k bs
  | .stat f k, bs => .sexpect f k bs

/-- A window that holds exactly one count. -/
def ExactlyOne (r : TimesRange) : Prop := ∃ n, ∀ k, (r.start ≤ k ∧ k < r.end_) ↔ k = n

theorem exactlyOne_iff (r : TimesRange) : ExactlyOne r ↔ r.end_ = r.start + 1 := by
  constructor
  · rintro ⟨n, hn⟩
    have h1 := (hn n).mpr rfl
    have h2 := hn r.start
    have h3 := hn (n + 1)
    have : r.start = n := h2.mp ⟨Nat.le_refl _, by omega⟩
    by_cases h : n + 1 < r.end_
    · have := h3.mp ⟨by omega, h⟩; omega
    · omega
  · intro h
    exact ⟨r.start, fun k => by omega⟩

theorem Store.expect_obs (nightly : Bool) (mi : MethodInfo V) (k : Key) (bs : List (Build V)) (st : Store V)
    (w : World V) : (st.expect nightly mi k bs w).1 =
      (Expectation.builds bs (Expectation.new nightly (mi.fn k) w.fresh) w.seqs).1 := by
  cases st <;> rfl

/-- The outcome of an `expect` statement, for every builder chain. -/
theorem step_expect (env : Env V) (s : Sys V) (c : Callee) (bs : List (Build V)) (r : Except Panic Unit)
    (ho : (s.step env (c.expect bs)).1 = .unit r false) :
    (∃ info, ∀ bs', (s.step env (c.expect bs')).1 =
      .unit (Expectation.builds bs' (Expectation.new env.nightly info s.world.fresh) s.world.seqs).1 false) ∨
    r = .error .poisoned := by
  cases c with
  | inst o m k =>
    simp only [Callee.expect, Sys.step] at ho ⊢
    rcases hobj : s.objs[o]? with _ | _ | obj
    · simp [hobj] at ho
    · simp [hobj] at ho
    · simp only [hobj, Obj.expect] at ho ⊢
      rcases hm : obj[m]? with _ | sl
      · simp [hm] at ho
      · left
        exact ⟨sl.mi.fn k, fun bs' => by simp only [hm, Store.expect_obs]⟩
  | stat f k =>
    simp only [Callee.expect, Sys.step] at ho ⊢
    rcases hobj : s.statics[f]? with _ | sf
    · simp [hobj] at ho
    · simp only [hobj, StaticFn.expect] at ho ⊢
      split at ho
      · right; simp at ho; exact ho.symm
      · rename_i hp
        left
        exact ⟨sf.mi.fn k, fun bs' => by rw [if_neg hp]; simp only [Store.expect_obs]⟩

theorem halfOpen_countArg (chain : List (Build V)) :
    lastOf countOf ⟨0, usizeMax⟩ chain = halfOpen (countArg chain) := by
  rw [lastOf_countOf]

/-- **C21**, exactness: let `expect_f().b1()…bn()` complete.  Then `expect_f().b1()…bn().in_sequence(sid)` completes
if the count window in force holds exactly one count, and panics otherwise. -/
theorem C21_exact (env : Env V) (sts : List (MethodInfo V)) (ops : List (Op V)) (c : Callee) (bs : List (Build V))
    (sid : Nat) (hok : nextObs env sts ops (c.expect bs) = .unit (.ok ()) false) :
    (ExactlyOne (halfOpen (countArg bs)) →
      nextObs env sts ops (c.expect (bs ++ [.inSequence sid])) = .unit (.ok ()) false) ∧
    (¬ ExactlyOne (halfOpen (countArg bs)) →
      nextObs env sts ops (c.expect (bs ++ [.inSequence sid])) = .unit (.error .onlyExact) false) := by
  unfold nextObs at hok ⊢
  rcases step_expect env _ c bs _ hok with ⟨info, hi⟩ | h
  · rw [hi] at hok ⊢
    generalize (Sys.run env ops (Sys.init sts)).2.world = w at hok ⊢
    rcases hb : Expectation.builds bs (Expectation.new env.nightly info w.fresh) w.seqs with ⟨r, e, q⟩
    rw [hb] at hok
    simp at hok
    subst hok
    have hc := (Cfg.new env.nightly info w.fresh).builds w.seqs bs
    have hch := Expectation.builds_chain hb
    rw [hb] at hc
    have hr := hc.range
    simp only [Expectation.new, List.nil_append] at hch
    rw [hch, halfOpen_countArg] at hr
    rw [Expectation.builds_append bs _ _ e w.seqs q hb, exactlyOne_iff]
    change e.common.times.range = halfOpen (countArg bs) at hr
    rw [← hr]
    simp only [Expectation.build, Common.inSequence, Times.isExact, decide_eq_true_eq]
    constructor
    · intro h
      rw [if_pos (by omega)]
    · intro h
      rw [if_neg (by omega)]
  · simp at h

/-- **C21**, position: an expectation put into a sequence gets the next position: as many positions as there were
`in_sequence` calls on this sequence before. -/
theorem C21_next (env : Env V) (sts : List (MethodInfo V)) (ops : List (Op V)) (c : Callee) (bs : List (Build V))
    (sid : Nat) (hok : nextObs env sts ops (c.expect (bs ++ [.inSequence sid])) = .unit (.ok ()) false) :
    let made := madeOf env sts ops
    let made' := madeOf env sts (ops ++ [c.expect (bs ++ [.inSequence sid])])
    made' = made ++ [bs ++ [.inSequence sid]] ∧
    slot made' sid made.length = some (joinCount sid made + bs.countP (joins sid)) := by
  intro made made'
  have hm : made' = made ++ [bs ++ [.inSequence sid]] := by
    simp only [made', made, madeOf]
    rw [run_snoc]
    exact step_made_expect _ _ _ _ (by cases c <;> rfl) hok
  refine ⟨hm, ?_⟩
  rw [hm, slot_new, lastOf_snoc]
  have hj : joins sid (.inSequence sid : Build V) = true := by simp [joins]
  simp [sequenceOf, List.countP_append, hj]

/-- **C21**: a position once given is kept, whatever the program does later. -/
theorem C21_kept (env : Env V) (sts : List (MethodInfo V)) (ops more : List (Op V)) (sid g p : Nat)
    (h : slot (madeOf env sts ops) sid g = some p) : slot (madeOf env sts (ops ++ more)) sid g = some p := by
  induction more using nat_snoc_induct with
  | nil => simpa using h
  | snoc more op ih =>
    rw [← List.append_assoc]
    unfold madeOf at ih ⊢
    rw [run_snoc]
    generalize (Sys.run env (ops ++ more) (Sys.init sts)).2 = s at ih ⊢
    have hE := step_evo env s op
    generalize (s.step env op).1 = ob at hE
    generalize (s.step env op).2.world = w' at hE ⊢
    generalize (s.step env op).2.all = l' at hE
    cases hE with
    | quiet _ ho => exact ih
    | expect hb hr =>
      obtain ⟨_, hc, _⟩ := slot_some ih
      rw [slot_old]
      · exact ih
      · rcases Nat.lt_or_ge g s.world.made.length with h | h
        · exact h
        · rw [List.getElem?_eq_none h] at hc; simp at hc
    | pred _ _ _ ho => exact ih
    | @hit tid args upd e _ _ info hc hm h1 ho =>
      obtain ⟨b, hb, hw⟩ := Expectation.call_world ⟨env.nightly, tid, env.dbg, upd⟩ info args e s.world
      rw [hw]; exact ih

/-- **C21**, order, no repeats and no gaps: two members of a sequence have different positions, ordered as the
expectations were placed; and if every expectation is placed at most once, the positions in
use are exactly those below the number of `in_sequence` calls. -/
theorem C21_positions (env : Env V) (sts : List (MethodInfo V)) (ops : List (Op V)) (sid : Nat) :
    let made := madeOf env sts ops
    (∀ g g' p p', slot made sid g = some p → slot made sid g' = some p' → (p < p' ↔ g < g')) ∧
    ((∀ c ∈ made, JoinOnce sid c) → ∀ p, (∃ g, slot made sid g = some p) ↔ p < joinCount sid made) := by
  intro made
  refine ⟨?_, ?_⟩
  · intro g g' p p' h h'
    constructor
    · intro hlt
      rcases Nat.lt_trichotomy g g' with h1 | h1 | h1
      · exact h1
      · subst h1; rw [h] at h'; simp at h'; omega
      · have := slot_lt h' h h1; omega
    · exact slot_lt h h'
  · intro honce p
    rw [← members_length honce]
    constructor
    · rintro ⟨g, hg⟩
      obtain ⟨n, hn⟩ := (slot_members honce g p).mp hg
      rcases Nat.lt_or_ge p (members made sid).length with h | h
      · exact h
      · rw [List.getElem?_eq_none h] at hn; simp at hn
    · intro hp
      exact ⟨_, (slot_members honce _ p).mpr ⟨_, List.getElem?_eq_getElem hp⟩⟩

/-- **C21**, the model's own numbering agrees: every live expectation's handle is its position. -/
theorem C21_handle (env : Env V) (sts : List (MethodInfo V)) (ops : List (Op V)) :
    ∀ e ∈ (Sys.run env ops (Sys.init sts)).2.all, ∀ h, e.common.seqHandle = some h →
      slot (madeOf env sts ops) h.sid e.gid = some h.seq :=
  (seqInv_run env sts ops).handle

/-! ## C23: zero counts block -/

/-- **C23**: once an expectation with `times(0)` (or `never()`) is in a sequence at position `j`, no call to this or
any later position is ever accepted, in any program. -/
theorem C23_blocked (env : Env V) (sts : List (MethodInfo V)) (ops : List (Op V)) (sid z j : Nat)
    (hlen : (logOf env sts ops).length ≤ usizeMax)
    (hz : slot (madeOf env sts ops) sid z = some j) (hzero : (countWin (madeOf env sts ops) z).end_ ≤ 1) :
    ∀ h ∈ logOf env sts ops, ∀ k, slot (madeOf env sts ops) sid h.gid = some k → j ≤ k → h.passed = false := by
  intro h hh k hk hjk
  obtain ⟨a, b, hab⟩ := List.append_of_mem hh
  rcases hb : h.passed with _ | _
  · rfl
  · have hv := (member_verdict hlen hab hk).mp hb
    have hle : (seqSt (madeOf env sts ops) sid a).level ≤ j := SeqSt.run_blocked _ _ _ _ (by
      intro g hg
      rw [slot_inj hg hz]
      exact hzero)
    have : k = j := by omega
    subst this
    rw [slot_inj hk hz] at hv
    omega

/-- **C23**, in terms of what the caller observes: no call to a later member returns normally. -/
theorem C23_observed (env : Env V) (sts : List (MethodInfo V)) (ops : List (Op V)) (op : Op V) (sid z j k : Nat) (v : V)
    (hlen : (logOf env sts ops).length < usizeMax)
    (hz : slot (madeOf env sts ops) sid z = some j) (hzero : (countWin (madeOf env sts ops) z).end_ ≤ 1)
    (h : Hit V) (hl : logOf env sts (ops ++ [op]) = logOf env sts ops ++ [h])
    (hk : slot (madeOf env sts ops) sid h.gid = some k) (hjk : j ≤ k) :
    nextObs env sts ops op ≠ .value (.ok v) := by
  intro hv
  obtain ⟨g', tid, args, u, h1, h2⟩ := ok_passed env _ op v hv
  have hb : op.builds? = none := by cases op <;> simp_all [Op.callInfo?, Op.builds?]
  have hm : madeOf env sts (ops ++ [op]) = madeOf env sts ops := by
    unfold madeOf
    rw [run_snoc, step_made_call _ _ _ hb]
  have hp : h.passed = true := by
    unfold logOf at hl
    rw [run_snoc, h1] at hl
    have := List.append_inj_right' hl rfl
    simp at this
    rw [← this]
  have := C23_blocked env sts (ops ++ [op]) sid z j (by rw [hl]; simp; omega) (by rw [hm]; exact hz)
    (by rw [hm]; exact hzero) h (by rw [hl]; simp) k (by rw [hm]; exact hk) hjk
  rw [hp] at this
  simp at this

/-! ## The hypotheses are met -/

section Examples

/-- Two objects with one method each; sequence 3 holds `times(2)` of the first and `once()` of the second;
sequence 4 holds another expectation. -/
def seqProg (calls : List (Nat × Nat)) : List (Op Nat) :=
  .new [⟨false, ⟨.static, "f", "M::f", none⟩, fun _ => some 40⟩] ::
  .new [⟨false, ⟨.static, "g", "M::g", none⟩, fun _ => some 40⟩] ::
  .expect 0 0 0 [.withf fun as => .ok (as == [1]), .times (.n 2), .inSequence 3, .returnConst 5] ::
  .expect 0 0 0 [.withf fun as => .ok (as == [2]), .once, .inSequence 4, .returnConst 6] ::
  .expect 1 0 0 [.once, .inSequence 3, .returnConst 7] ::
  calls.map fun c => .call c.1 0 0 0 [c.2] id

def logged (ops : List (Op Nat)) : List (Nat × Bool) := (logOf (envOf false) [] ops).map fun h => (h.gid, h.passed)

example : logged (seqProg [(0, 1), (0, 2), (0, 1), (1, 9), (0, 1)]) =
    [(0, true), (1, true), (0, true), (2, true)] := by decide
example : (List.range 4).map (slot (madeOf (envOf false) [] (seqProg [])) 3) = [some 0, none, some 1, none] := by decide
example : (List.range 4).map (slot (madeOf (envOf false) [] (seqProg [])) 4) = [none, some 0, none, none] := by decide
example : members (madeOf (envOf false) [] (seqProg [])) 3 = [(0, 2), (2, 1)] := by decide

/-- Every `expect` statement of the program completes. -/
example : (Sys.run (envOf false) (seqProg []) (Sys.init [])).1 = List.replicate 5 (.unit (.ok ()) false) := by rfl

example : ∀ c ∈ madeOf (envOf false) [] (seqProg []), JoinOnce 3 c := by
  simp only [JoinOnce]; decide

/-- `in_sequence` on an expectation with a window of two counts, and with none set. -/
example : nextObs (envOf false) [] (seqProg []) ((Callee.inst 0 0 0).expect [.times (.range 2 4)]) =
    .unit (.ok ()) false := rfl
example : ¬ ExactlyOne (halfOpen (countArg ([.times (.range 2 4)] : List (Build Nat)))) := by
  rw [exactlyOne_iff]; decide
example : nextObs (envOf false) [] (seqProg []) ((Callee.inst 0 0 0).expect [.times (.range 2 4), .inSequence 3]) =
    .unit (.error .onlyExact) false := rfl

/-- "Received", not "answered": a call that comes out of turn is rejected, yet counts.  Here expectation 2 is called
out of turn, and expectation 0 once after it was skipped; both count as received. The second member is done
after one rejected call, and the sequence can never be completed. -/
example : logged (seqProg [(1, 9), (0, 1), (0, 1), (1, 9)]) = [(2, false), (0, true), (0, true), (2, false)] := by decide

/-- In a sequence of three, the *second* may be completed by a rejected call and one accepted call. -/
example : let ops : List (Op Nat) := [.new [⟨false, ⟨.static, "f", "M::f", none⟩, fun _ => some 40⟩],
      .new [⟨false, ⟨.static, "g", "M::g", none⟩, fun _ => some 40⟩],
      .new [⟨false, ⟨.static, "h", "M::h", none⟩, fun _ => some 40⟩],
      .expect 0 0 0 [.once, .inSequence 0, .returnConst 5],
      .expect 1 0 0 [.times (.n 2), .inSequence 0, .returnConst 5],
      .expect 2 0 0 [.once, .inSequence 0, .returnConst 5],
      .call 1 0 0 0 [] id, .call 0 0 0 0 [] id, .call 1 0 0 0 [] id, .call 2 0 0 0 [] id]
    logged ops = [(1, false), (0, true), (1, true), (2, true)] := by decide

/-- A `times(0)` member blocks. -/
example : let ops : List (Op Nat) := [.new [⟨false, ⟨.static, "f", "M::f", none⟩, fun _ => some 40⟩],
      .new [⟨false, ⟨.static, "g", "M::g", none⟩, fun _ => some 40⟩],
      .expect 0 0 0 [.times (.n 0), .inSequence 0, .returnConst 5],
      .expect 1 0 0 [.once, .inSequence 0, .returnConst 5],
      .call 1 0 0 0 [] id]
    slot (madeOf (envOf false) [] ops) 0 0 = some 0 ∧ (countWin (madeOf (envOf false) [] ops) 0).end_ ≤ 1 ∧
    logged ops = [(1, false)] := by decide

/-- Placing one expectation twice leaves a gap that nobody can fill (why `JoinOnce` is needed). -/
example : let ops : List (Op Nat) := [.new [⟨false, ⟨.static, "f", "M::f", none⟩, fun _ => some 40⟩],
      .expect 0 0 0 [.once, .inSequence 0, .inSequence 0, .returnConst 5],
      .call 0 0 0 0 [] id]
    slot (madeOf (envOf false) [] ops) 0 0 = some 1 ∧ logged ops = [(0, false)] := by decide

end Examples

end Mockall
