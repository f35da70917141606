import Verif.Lemmas.ReferenceRun
import Verif.Props.DeriveProgram

/-! # C84: the runtime follows the reference semantics -/

set_option linter.unusedSimpArgs false

namespace Mockall.Props

open Spec Derive

variable {V : Type}

/-- C84.  Whatever a program does with mock objects, static methods and sequences, it sees what the reference
semantics of `Spec/Reference.lean` lets it see: every value, every panic with its message, and never an abort. -/
theorem C84_reference (env : Env V) (hf : env.Fair) (sts : List (MethodInfo V)) (ops : List (Op V))
    (hl : ops.length ≤ usizeMax) :
    Ref.Runs env.nightly env.dbg (Ref.St.init sts) ops (Sys.run env ops (Sys.init sts)).1 :=
  runs_sim hf ops (SysSim.init env.nightly sts) (by omega)

/-! ## Without generic methods nothing is left open -/

/-- No method is generic. -/
def PlainSt (s : Ref.St V) : Prop :=
  (∀ (o : Nat) (ms : List (Ref.Meth V)), s.objs[o]? = some (some ms) → ∀ m ∈ ms, m.mi.generic = false) ∧
  ∀ f ∈ s.statics, f.1.mi.generic = false

theorem plain_fault {m : Ref.Meth V} (h : m.mi.generic = false) (ks ks' : List Key) : m.fault ks = m.fault ks' := by
  simp [Ref.Meth.fault, Ref.Meth.pending, h]

theorem plain_objFault {ms : List (Ref.Meth V)} (h : ∀ m ∈ ms, m.mi.generic = false) (ks ks' : Nat → List Key) :
    Ref.fault ks ms = Ref.fault ks' ms := by
  unfold Ref.fault
  generalize 0 = j
  induction ms generalizing j with
  | nil => rfl
  | cons m ms ih =>
    simp only [List.zipIdx_cons, List.findSome?_cons]
    rw [plain_fault (h m (.head _)) (ks j) (ks' j), ih (fun x hx => h x (.tail _ hx))]

theorem plain_checkpoint {ms : List (Ref.Meth V)} (h : ∀ m ∈ ms, m.mi.generic = false) (ks ks' : Nat → List Key) :
    Ref.checkpoint ks ms = Ref.checkpoint ks' ms := by
  unfold Ref.checkpoint
  have : ∀ j, (ms.zipIdx j).findIdx (fun x => (x.1.fault (ks x.2)).isSome) =
      (ms.zipIdx j).findIdx (fun x => (x.1.fault (ks' x.2)).isSome) := by
    induction ms with
    | nil => intro; rfl
    | cons m ms ih =>
      intro j
      simp only [List.zipIdx_cons, List.findIdx_cons]
      rw [plain_fault (h m (.head _)) (ks j) (ks' j), ih (fun x hx => h x (.tail _ hx))]
  rw [this 0]

theorem plain_scheckpoint {f : Ref.Meth V × Bool} (h : f.1.mi.generic = false) (ks ks' : List Key) :
    Ref.scheckpoint ks f = Ref.scheckpoint ks' f := by
  unfold Ref.scheckpoint
  rw [plain_fault h ks ks']

theorem scheckpoint_mi (ks : List Key) (f : Ref.Meth V × Bool) : (Ref.scheckpoint ks f).2.1.mi = f.1.mi := by
  unfold Ref.scheckpoint
  split <;> rfl

theorem plain_set {l : List (Ref.Meth V × Bool)} (h : ∀ f ∈ l, f.1.mi.generic = false) (i : Nat)
    {x : Ref.Meth V × Bool} (hx : x.1.mi.generic = false) : ∀ f ∈ l.set i x, f.1.mi.generic = false := by
  intro f hf
  rcases List.mem_or_eq_of_mem_set hf with hf | rfl
  · exact h f hf
  · exact hx

theorem plain_mcheckpoint (ks ks' : Nat → List Key) (fs : List Nat) {l : List (Ref.Meth V × Bool)}
    (h : ∀ f ∈ l, f.1.mi.generic = false) :
    Ref.mcheckpoint ks fs l = Ref.mcheckpoint ks' fs l ∧
    ∀ f ∈ (Ref.mcheckpoint ks fs l).2, f.1.mi.generic = false := by
  induction fs generalizing l with
  | nil => exact ⟨rfl, h⟩
  | cons i fs ih =>
    unfold Ref.mcheckpoint
    cases hi : l[i]? with
    | none => exact ⟨rfl, h⟩
    | some m =>
      have hm := h m (List.mem_of_getElem? hi)
      simp only
      rw [plain_scheckpoint hm (ks i) (ks' i)]
      have hmi := scheckpoint_mi (ks' i) m
      rcases hr : Ref.scheckpoint (ks' i) m with ⟨_ | _, m'⟩ <;> rw [hr] at hmi <;> simp only at hmi
      · exact ⟨rfl, plain_set h i (hmi ▸ hm)⟩
      · exact ih (plain_set h i (hmi ▸ hm))

theorem plain_objs {s : Ref.St V} (h : PlainSt s) (o : Nat) {x : Option (List (Ref.Meth V))}
    (hx : ∀ ms, x = some ms → ∀ m ∈ ms, m.mi.generic = false) :
    ∀ (o' : Nat) (ms : List (Ref.Meth V)), (s.objs.set o x)[o']? = some (some ms) → ∀ m ∈ ms, m.mi.generic = false := by
  intro o' ms ho
  rw [List.getElem?_set] at ho
  split at ho
  · split at ho
    · simp only [Option.some.injEq] at ho
      exact hx ms ho
    · cases ho
  · exact h.1 o' ms ho

theorem plain_put {ms : List (Ref.Meth V)} (h : ∀ m ∈ ms, m.mi.generic = false) {i : Nat} {x : Ref.Meth V}
    (hx : ms[i]? = some x) (k : Key) (es : List (Ref.Exp V)) : ∀ m ∈ ms.set i (x.put k es), m.mi.generic = false := by
  intro m hm
  rcases List.mem_or_eq_of_mem_set hm with hm | rfl
  · exact h m hm
  · exact h x (List.mem_of_getElem? hx)

theorem plain_step (nightly : Bool) (dbg : V → String) (ks ks' : Nat → List Key) {s : Ref.St V} (h : PlainSt s)
    (op : Op V) (hop : Ref.Plain op) :
    s.step nightly dbg ks op = s.step nightly dbg ks' op ∧ PlainSt (s.step nightly dbg ks op).2 := by
  cases op with
  | new ms =>
    refine ⟨rfl, ?_, h.2⟩
    intro o ms' ho
    simp only [Ref.St.step] at ho
    rcases List.mem_append.mp (List.mem_of_getElem? ho) with hm | hm
    · obtain ⟨i, hi⟩ := List.mem_iff_getElem?.mp hm
      exact h.1 i ms' hi
    · simp only [List.mem_singleton, Option.some.injEq] at hm
      subst hm
      intro m hm
      obtain ⟨mi, hmi, rfl⟩ := List.mem_map.mp hm
      exact hop mi hmi
  | expect o m k bs =>
    refine ⟨rfl, ?_⟩
    simp only [Ref.St.step]
    split
    · rename_i ms ho
      split
      · rename_i x hx
        exact ⟨plain_objs h o fun _ e => by cases e; exact plain_put (h.1 o ms ho) hx _ _, h.2⟩
      · exact h
    · exact h
  | call o m k tid args upd =>
    refine ⟨rfl, ?_⟩
    simp only [Ref.St.step]
    split
    · rename_i ms ho
      split
      · rename_i x hx
        split
        · exact ⟨plain_objs h o fun _ e => by cases e; exact plain_put (h.1 o ms ho) hx _ _, h.2⟩
        · exact h
      · exact h
    · exact h
  | checkpoint o =>
    simp only [Ref.St.step]
    split
    · rename_i ms ho
      rw [plain_objFault (h.1 o ms ho) ks ks', plain_checkpoint (h.1 o ms ho) ks ks']
      refine ⟨rfl, plain_objs h o fun _ e => ?_, h.2⟩
      cases e
      intro m hm
      unfold Ref.checkpoint at hm
      obtain ⟨i, hi, rfl⟩ := List.mem_mapIdx.mp hm
      have := h.1 o ms ho _ (List.getElem_mem hi)
      split <;> exact this
    · exact ⟨rfl, h⟩
  | drop o pk =>
    simp only [Ref.St.step]
    split
    · rename_i ms ho
      rw [plain_objFault (h.1 o ms ho) ks ks']
      exact ⟨rfl, plain_objs h o nofun, h.2⟩
    · exact ⟨rfl, h⟩
  | sexpect f k bs =>
    refine ⟨rfl, ?_⟩
    simp only [Ref.St.step]
    split
    · exact h
    · rename_i x hx
      exact ⟨h.1, plain_set h.2 f (h.2 (x, false) (List.mem_of_getElem? hx))⟩
    · exact h
  | scall f k tid args =>
    refine ⟨rfl, ?_⟩
    simp only [Ref.St.step]
    split
    · exact h
    · rename_i x hx
      split
      · exact ⟨h.1, plain_set h.2 f (h.2 (x, false) (List.mem_of_getElem? hx))⟩
      · exact h
    · exact h
  | scheckpoint f =>
    simp only [Ref.St.step]
    split
    · rename_i x hx
      have hg := h.2 _ (List.mem_of_getElem? hx)
      rw [plain_scheckpoint hg (ks f) (ks' f)]
      exact ⟨rfl, h.1, plain_set h.2 f (scheckpoint_mi _ x ▸ hg)⟩
    · exact ⟨rfl, h⟩
  | sdrop f pk =>
    simp only [Ref.St.step]
    split
    · rename_i x hx
      have hg := h.2 _ (List.mem_of_getElem? hx)
      rw [plain_scheckpoint hg (ks f) (ks' f)]
      refine ⟨rfl, h.1, plain_set h.2 f ?_⟩
      cases pk
      · exact scheckpoint_mi _ x ▸ hg
      · exact hg
    · exact ⟨rfl, h⟩
  | mcheckpoint fs =>
    have hm := plain_mcheckpoint ks ks' fs h.2
    simp only [Ref.St.step]
    rw [← hm.1]
    exact ⟨rfl, h.1, hm.2⟩

theorem plain_runs {nightly : Bool} {dbg : V → String} {s : Ref.St V} {ops : List (Op V)} {os : List (Obs V)}
    (hr : Ref.Runs nightly dbg s ops os) (h : PlainSt s) (hop : ∀ op ∈ ops, Ref.Plain op) :
    os = Ref.run nightly dbg s ops := by
  induction hr with
  | nil => rfl
  | cons s op ks hk hr ih =>
    have hs := plain_step nightly dbg ks (fun _ => []) h op (hop op (.head _))
    rw [ih hs.2 fun x hx => hop x (.tail _ hx), hs.1]
    rfl

/-- C84.  In programs without generic methods the reference semantics leaves nothing open: what the program sees
is what `Ref.run` computes. -/
theorem C84_exact (env : Env V) (hf : env.Fair) (sts : List (MethodInfo V)) (ops : List (Op V))
    (hl : ops.length ≤ usizeMax) (hs : ∀ mi ∈ sts, mi.generic = false) (ho : ∀ op ∈ ops, Ref.Plain op) :
    (Sys.run env ops (Sys.init sts)).1 = Ref.run env.nightly env.dbg (Ref.St.init sts) ops := by
  refine plain_runs (C84_reference env hf sts ops hl) ⟨fun o ms h => ?_, fun f h => ?_⟩ ho
  · simp [Ref.St.init] at h
  · obtain ⟨mi, hmi, rfl⟩ := List.mem_map.mp h
    exact hs mi hmi

theorem Pointwise.length_eq {α β : Type} {R : α → β → Prop} {l : List α} {m : List β} (h : Pointwise R l m) :
    l.length = m.length := by
  induction h with
  | nil => rfl
  | cons _ _ ih => simp [ih]

/-- C84.  What a program sees of any number of generated mocks, structs and modules, is what the reference
semantics lets it see of as many objects and static methods. -/
theorem C84_generated (mocks : List Mock) (hv : ∀ mk ∈ mocks, mk.Valid)
    (info : Nat → List Ident → MethodInfo V) (env : Env V) (hf : env.Fair) :
    ∃ (P : Plan V) (stat : Nat → Nat → Nat), P.Lists mocks info stat ∧
      ∀ ops xs σ, ops.length ≤ usizeMax → PRun mocks info env (.init info) ops xs σ →
        ∃ obj ops', Apart σ mocks.length obj ∧ Pointwise (PSame mocks P obj stat) ops ops' ∧
          Ref.Runs env.nightly env.dbg (Ref.St.init (P.statics.map fun x => info x.1 x.2)) ops' xs := by
  obtain ⟨P, stat, h, H⟩ := C83_behaves mocks hv info env
  refine ⟨P, stat, h, fun ops xs σ hl hr => ?_⟩
  obtain ⟨obj, ops', h1, h2, h3⟩ := H ops xs σ hr
  refine ⟨obj, ops', h1, h2, ?_⟩
  rw [← h3]
  exact C84_reference env hf _ ops' (Pointwise.length_eq h2 ▸ hl)

/-! ## A program -/

section Examples

/-- Two methods of a mock object and a static function. -/
def refFoo : MethodInfo Nat := ⟨false, ⟨.static, "MockFoo::foo", "MockFoo::foo", none⟩, fun _ => none⟩
def refBar : MethodInfo Nat := ⟨false, ⟨.refMut, "MockFoo::bar", "MockFoo::bar", none⟩, fun _ => none⟩
def refGen : MethodInfo Nat := ⟨true, ⟨.static, "MockFoo::gen", "MockFoo::gen", none⟩, fun _ => none⟩
def refStat : MethodInfo Nat := ⟨false, ⟨.static, "f", "mock_m::f", none⟩, fun _ => none⟩

def refEnv : Env Nat := ⟨false, toString, List.reverse⟩

theorem refEnv_fair : refEnv.Fair := fun m => m.reverse_perm

/-- Two objects and a static function in one sequence, with calls in the right and in the wrong order, a value
written through a returned `&mut`, a call too many, a function that has panicked, and verification. -/
def refProgram : List (Op Nat) :=
  [.new [refFoo, refBar], .new [refFoo],
    .expect 0 0 0 [.times (.n 1), .inSequence 0, .returnOnce { run := fun as => .ok (as.length + 40) }],
    .sexpect 0 0 [.times (.n 1), .inSequence 0, .returnConst 7],
    .expect 0 1 0 [.returnVar 3],
    .expect 1 0 0 [.times (.n 2), .inSequence 1],
    .expect 1 0 0 [.times (.range 1 3), .inSequence 1],
    .scall 0 0 0 [5],
    .call 0 0 0 0 [1, 2] id,
    .scall 0 0 0 [5],
    .sdrop 0 true, .scall 0 0 0 [5],
    .call 0 1 0 0 [] (· + 1), .call 0 1 0 0 [] id,
    .call 0 0 0 0 [] id,
    .call 1 0 0 0 [9] id,
    .checkpoint 0, .checkpoint 1, .drop 0 false, .drop 1 false, .drop 1 false]

/-- What it sees. -/
theorem refProgram_sees : Ref.run false toString (Ref.St.init [refStat]) refProgram =
    [.unit (.ok ()) false, .unit (.ok ()) false, .unit (.ok ()) false, .unit (.ok ()) false, .unit (.ok ()) false,
      .unit (.ok ()) false, .unit (.error .onlyExact) false,
      .value (.error (.seqViolation "mock_m::f(5)")),
      .value (.ok 42),
      .value (.error .poisoned),
      .unit (.ok ()) false, .value (.error (.noMatch "mock_m::f(5)")),
      .value (.ok 3), .value (.ok 4),
      .value (.error (.call "MockFoo::foo" "<anything>" (.tooMany 2 1))),
      .value (.error (.ret "MockFoo::foo" "<anything>" .needNightly)),
      .unit (.error (.tooManyAtDrop "MockFoo::foo" "<anything>" 2 1)) false,
      .unit (.error (.tooFewAtDrop "MockFoo::foo" "<anything>" 1 2)) false,
      .unit (.ok ()) false, .unit (.ok ()) false, .invalid] := by rfl

/-- So does the runtime. -/
example : (Sys.run refEnv refProgram (Sys.init [refStat])).1 = Ref.run false toString (Ref.St.init [refStat]) refProgram :=
  C84_exact refEnv refEnv_fair [refStat] refProgram (by decide) (by simp [refStat])
    (by simp [refProgram, Ref.Plain, refFoo, refBar])

/-- With generic methods the order of verification is open: two type arguments have something wrong, either may
be reported. -/
def refOpen : List (Op Nat) :=
  [.new [refGen], .expect 0 0 1 [.times (.n 1)], .expect 0 0 2 [.times (.n 2)], .drop 0 false]

example (n : Nat) (hn : n = 1 ∨ n = 2) : Ref.Runs false toString (Ref.St.init []) refOpen
    [.unit (.ok ()) false, .unit (.ok ()) false, .unit (.ok ()) false,
      .unit (.error (.tooFewAtDrop "MockFoo::gen" "<anything>" 0 n)) false] := by
  rcases hn with rfl | rfl
  · exact C84_reference ⟨false, toString, id⟩ (fun m => .refl m) [] refOpen (by decide)
  · exact C84_reference refEnv refEnv_fair [] refOpen (by decide)

end Examples

end Mockall.Props
