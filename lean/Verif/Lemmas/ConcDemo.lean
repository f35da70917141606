import Verif.Lemmas.ConcMore
import Verif.Rt.Method

/-! # Concrete shared mocks, for the examples

A mock with methods 0, 1, ... is configured by the sequential model, one method after the other, and
then shared between threads: the expectations of all methods lie one after another in memory. -/

namespace Mockall

/-- What the generator knows of the methods. -/
def demoInfo (m : Nat) : FnInfo Nat := ⟨.static, s!"f{m}", s!"MockFoo::f{m}", none⟩

/-- Configure the methods: `confs` lists for each method the builder chains of its expectations. -/
def demoSetup : List (List (List (Build Nat))) → Nat → World Nat → List (List (Expectation Nat)) × World Nat
  | [], _, w => ([], w)
  | conf :: confs, m, w =>
    let r := MState.run false toString (demoInfo m) (conf.map .expect) (.init w)
    let q := demoSetup confs (m + 1) r.2.world
    (r.2.exps :: q.1, q.2)

/-- Nothing has happened yet. -/
def demoWorld : World Nat := ⟨fun _ => .new, 0, [], [], []⟩

/-- The memory after configuration. -/
def demoMem (confs : List (List (List (Build Nat)))) : Mem Nat :=
  let r := demoSetup confs 0 demoWorld
  ⟨fun a => ⟨r.1.flatten.getD a (Expectation.new false (demoInfo 0) 0), none, none⟩, r.2.seqs, []⟩

/-- Method `m` has the expectations configured for it. -/
def demoEnv (confs : List (List (List (Build Nat)))) : CEnv Nat where
  vec m := (List.range (confs.getD m []).length).map (· + ((confs.take m).map List.length).sum)
  info := demoInfo
  nightly := false
  dbg := toString

/-- `[0, 0, 1]`: call 0 steps twice, then call 1 once. -/
def steps (l : List Nat) : List (Sched Nat) := l.map .step

/-- What the calls returned so far. -/
def CState.outcomes {V : Type} (s : CState V) : List (Option (Except Panic V)) :=
  s.acts.map fun act => match act.pc with | .done r => some r | _ => none

theorem demoMem_quiet (confs : List (List (List (Build Nat))))
    (h : ∀ e ∈ (demoSetup confs 0 demoWorld).1.flatten, e.common.times.count = 0) :
    (demoMem confs).Quiet := by
  refine ⟨fun _ => rfl, fun _ => rfl, fun a => ?_⟩
  simp only [demoMem, Cell.count]
  rw [List.getD_eq_getElem?_getD]
  cases hg : (demoSetup confs 0 demoWorld).1.flatten[a]? with
  | none => simp [Expectation.new, Common.dflt, Times.dflt]
  | some e => simp [h e (List.mem_of_getElem? hg)]

instance : DecidableEq (Except Panic Nat)
  | .ok a, .ok b => if h : a = b then isTrue (by rw [h]) else isFalse (by simp [h])
  | .error a, .error b => if h : a = b then isTrue (by rw [h]) else isFalse (by simp [h])
  | .ok _, .error _ => isFalse (by simp)
  | .error _, .ok _ => isFalse (by simp)

end Mockall
