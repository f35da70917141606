import Verif.Lemmas.Drop
import Verif.Props.Sequence

/-! # Checkpoints and drops of mock objects (C24-C27, C29, C34)

`s.target (.inst o m k)` is the list of the expectations on method `m` (instantiated with type arguments `k`) of
object `o`, in declaration order (`target_sorted`).  Whether a single expectation is satisfied is the
subject of C02: `permits (countArg e.chain) n` says that `n` calls are allowed by its `times` argument. -/

set_option linter.unusedSimpArgs false

namespace Mockall

open Spec Props

variable {V : Type}

/-! ## What an object's expectations are -/

theorem GMap.get_of_mem {m : GMap V} (h : (m.map (·.1)).Nodup) {k : Key} {es : List (Expectation V)}
    (hm : (k, es) ∈ m) : GMap.get m k = some es := by
  induction m with
  | nil => simp at hm
  | cons p m ih =>
    rw [List.map_cons, List.nodup_cons] at h
    unfold GMap.get
    rw [List.find?_cons]
    rcases List.mem_cons.mp hm with heq | hm
    · subst heq; simp
    · have hne : (p.1 == k) = false := by
        simp only [beq_eq_false_iff_ne]
        intro he
        exact h.1 (he ▸ List.mem_map_of_mem hm)
      rw [hne]
      exact ih h.2 hm

theorem GMap.mem_of_get {m : GMap V} {k : Key} {es : List (Expectation V)} (h : GMap.get m k = some es) :
    (k, es) ∈ m := by
  obtain ⟨a, b, h1, _⟩ := GMap.get_split h
  rw [h1]; simp

theorem Store.mem_all_target {st : Store V} (h : st.keys.Nodup) (e : Expectation V) :
    e ∈ st.all ↔ ∃ k, e ∈ st.target k := by
  cases st with
  | concrete es => exact ⟨fun h => ⟨0, h⟩, fun ⟨_, h⟩ => h⟩
  | generic m =>
    simp only [Store.all, Store.target, List.mem_flatMap]
    constructor
    · rintro ⟨⟨k, es⟩, hp, he⟩
      exact ⟨k, by rw [GMap.get_of_mem h hp]; exact he⟩
    · rintro ⟨k, he⟩
      rcases hg : GMap.get m k with _ | es
      · rw [hg] at he; simp at he
      · rw [hg] at he
        exact ⟨(k, es), GMap.mem_of_get hg, he⟩

/-- The expectations of an object are those of its methods. -/
theorem obj_all_target (env : Env V) (sts : List (MethodInfo V)) (ops : List (Op V)) (o : Nat) (obj : Obj V)
    (ho : (Sys.run env ops (Sys.init sts)).2.objs[o]? = some (some obj)) (e : Expectation V) :
    e ∈ obj.all ↔ ∃ m k, e ∈ (Sys.run env ops (Sys.init sts)).2.target (.inst o m k) := by
  have hs := (sorted_run env sts ops).objs o obj ho
  simp only [Obj.all, List.mem_flatMap, Sys.target, ho]
  constructor
  · rintro ⟨sl, hsl, he⟩
    obtain ⟨m, hm⟩ := List.getElem?_of_mem hsl
    obtain ⟨k, hk⟩ := (Store.mem_all_target (hs m sl hm).keys e).mp he
    exact ⟨m, k, by rw [hm]; exact hk⟩
  · rintro ⟨m, k, he⟩
    rcases hm : obj[m]? with _ | sl
    · rw [hm] at he; simp at he
    · rw [hm] at he
      exact ⟨sl, List.mem_of_getElem? hm, (Store.mem_all_target (hs m sl hm).keys e).mpr ⟨k, he⟩⟩

/-- Number of calls dispatched to an expectation during a program. -/
def callsTo (env : Env V) (sts : List (MethodInfo V)) (ops : List (Op V)) (e : Expectation V) : Nat :=
  (logOf env sts ops).countP (·.gid == e.gid)

/-- No call of the program makes the argument matcher of `e` panic. -/
def Peaceful (ops : List (Op V)) (e : Expectation V) : Prop :=
  ∀ op ∈ ops, ∀ tid args upd, op.callInfo? = some (tid, args, upd) →
    ∃ b, Spec.verdict tid args e.chain = .ok b

theorem step_checkpoint (env : Env V) (s : Sys V) (o : Nat) (obj : Obj V) (ho : s.objs[o]? = some (some obj)) :
    s.step env (.checkpoint o) = (.unit (obj.checkpoint env false).1.1 (obj.checkpoint env false).1.2,
      { s with objs := s.objs.set o (some (obj.checkpoint env false).2) }) := by
  simp [Sys.step, ho]

theorem step_drop (env : Env V) (s : Sys V) (o : Nat) (pk : Bool) (obj : Obj V) (ho : s.objs[o]? = some (some obj)) :
    s.step env (.drop o pk) = (.unit (obj.drop env pk).1 (obj.drop env pk).2, { s with objs := s.objs.set o none }) := by
  simp [Sys.step, ho]

theorem verdict_ok {α : Type} {l : List α} {f : α → Option Panic} :
    verdict (l.findSome? f) = .ok () ↔ ∀ x ∈ l, f x = none := by
  rw [← List.findSome?_eq_none_iff]
  rcases l.findSome? f with _ | p <;> simp [verdict]

/-! ## C24: a checkpoint verifies and clears -/

/-- **C24**, verdict: after any program, `checkpoint()` on a live object completes iff every expectation of every
method of the object got a number of calls that its `times` argument permits; otherwise it
panics (and never aborts).  `env'` gives the iteration order of the hash maps at the checkpoint; it is
arbitrary. -/
theorem C24_verdict (env env' : Env V) (hf : env'.Fair) (sts : List (MethodInfo V)) (ops : List (Op V)) (o : Nat)
    (hlive : ∃ obj, (Sys.run env ops (Sys.init sts)).2.objs[o]? = some (some obj))
    (hlen : (logOf env sts ops).length < usizeMax)
    (hp : ∀ m k, ∀ e ∈ (Sys.run env ops (Sys.init sts)).2.target (.inst o m k), Peaceful ops e) :
    ∃ r, ((Sys.run env ops (Sys.init sts)).2.step env' (.checkpoint o)).1 = .unit r false ∧
      (r = .ok () ↔ ∀ m k, ∀ e ∈ (Sys.run env ops (Sys.init sts)).2.target (.inst o m k),
        permits (countArg e.chain) (callsTo env sts ops e)) := by
  obtain ⟨obj, ho⟩ := hlive
  refine ⟨_, by rw [step_checkpoint _ _ _ _ ho, Obj.checkpoint_eq], ?_⟩
  rw [verdict_ok]
  have key : ∀ (i : FnInfo V) (m k) (e), e ∈ (Sys.run env ops (Sys.init sts)).2.target (.inst o m k) →
      (e.fault i = none ↔ permits (countArg e.chain) (callsTo env sts ops e)) := by
    intro i m k e he
    rw [Expectation.fault_none]
    exact C02_verdict env sts ops i e (target_all _ _ e he) hlen (hp m k e he)
  constructor
  · intro h m k e he
    obtain ⟨i, hi⟩ := (Obj.mem_order hf obj e).mpr ((obj_all_target env sts ops o obj ho e).mpr ⟨m, k, he⟩)
    exact (key i m k e he).mp (h _ hi)
  · rintro h ⟨i, e⟩ hx
    obtain ⟨m, k, he⟩ := (obj_all_target env sts ops o obj ho e).mp ((Obj.mem_order hf obj e).mp ⟨i, hx⟩)
    exact (key i m k e he).mpr (h m k e he)

theorem Obj.checkpoint_new {env : Env V} {ni : Bool} {n : Nat} {obj : Obj V}
    (hs : ∀ (m : Nat) (sl : Slot V), obj[m]? = some sl → sl.store.Sorted ni n sl.mi)
    (h : (obj.checkpoint env false).1.1 = .ok ()) : (obj.checkpoint env false).2 = Obj.new (obj.map (·.mi)) := by
  induction obj with
  | nil => rfl
  | cons s ss ih =>
    simp only [Obj.checkpoint] at h ⊢
    rcases hd : dropAll false s.mi.base (s.store.elems env) with ⟨p | ⟨⟩, ab⟩
    · rw [hd] at h; simp at h
    · rw [hd] at h
      simp only at h ⊢
      rw [ih (fun m sl hm => hs (m + 1) sl (by simpa using hm)) h]
      have := Store.drained_new (hs 0 s rfl)
      simp [Obj.new, this]

/-- **C24**, cleared: a completed checkpoint leaves exactly a newly created object (with the same methods) in the
object's place, and nothing else changes. -/
theorem C24_clears (env : Env V) (sts : List (MethodInfo V)) (ops : List (Op V)) (o : Nat) (obj : Obj V)
    (ho : (Sys.run env ops (Sys.init sts)).2.objs[o]? = some (some obj))
    (hok : nextObs env sts ops (.checkpoint o) = .unit (.ok ()) false) :
    let s := (Sys.run env ops (Sys.init sts)).2
    (s.step env (.checkpoint o)).2 = { s with objs := s.objs.set o (some (Obj.new (obj.map (·.mi)))) } ∧
    ∀ m k, (s.step env (.checkpoint o)).2.target (.inst o m k) = [] := by
  intro s
  change s.objs[o]? = _ at ho
  have hs := (sorted_run env sts ops).objs o obj ho
  unfold nextObs at hok
  change (s.step env _).1 = _ at hok
  rw [step_checkpoint _ _ _ _ ho] at hok ⊢
  simp at hok
  rw [Obj.checkpoint_new hs hok.1]
  refine ⟨rfl, ?_⟩
  intro m k
  have hlt : o < s.objs.length := (List.getElem?_eq_some_iff.mp ho).1
  simp only [Sys.target, List.getElem?_set_self hlt, Obj.new, List.getElem?_map]
  rcases obj[m]? with _ | sl
  · rfl
  · simp only [Option.map_some, Store.new]
    split <;> simp [Store.target, GMap.get]

/-! ### A checkpointed object is as good as new -/

/-- Redirect a reference to object `o` to the new object `n`; objects created later have moved by one. -/
def redirect (o n i : Nat) : Nat := if i = o then n else if i < n then i else i + 1

/-- The same operation on the redirected object. -/
def Op.redirect (o n : Nat) : Op V → Op V
  | .new ms => .new ms
  | .expect i m k bs => .expect (Mockall.redirect o n i) m k bs
  | .call i m k tid args u => .call (Mockall.redirect o n i) m k tid args u
  | .checkpoint i => .checkpoint (Mockall.redirect o n i)
  | .drop i pk => .drop (Mockall.redirect o n i) pk
  | .sexpect f k bs => .sexpect f k bs
  | .scall f k tid args => .scall f k tid args
  | .scheckpoint f => .scheckpoint f
  | .sdrop f pk => .sdrop f pk
  | .mcheckpoint fs => .mcheckpoint fs

/-- Two systems that differ in where the object is. -/
structure Moved (o n : Nat) (s s' : Sys V) : Prop where
  statics : s'.statics = s.statics
  world : s'.world = s.world
  lt : o < n
  le : n ≤ s.objs.length
  len : s'.objs.length = s.objs.length + 1
  objs : ∀ i, s'.objs[redirect o n i]? = s.objs[i]?

theorem redirect_inj {o n : Nat} (h : o < n) {i j : Nat} (he : redirect o n i = redirect o n j) : i = j := by
  unfold redirect at he
  split at he <;> split at he <;> first | omega | (split at he <;> first | omega | (split at he <;> omega))

theorem Moved.set {o n : Nat} {s s' : Sys V} (h : Moved o n s s') (i : Nat) (x : Option (Obj V)) (w : World V) :
    Moved o n { s with objs := s.objs.set i x, world := w }
      { s' with objs := s'.objs.set (redirect o n i) x, world := w } := by
  refine ⟨h.statics, rfl, h.lt, by simpa using h.le, by simpa using h.len, ?_⟩
  intro j
  simp only [List.getElem?_set]
  by_cases hij : i = j
  · subst hij
    simp only [↓reduceIte]
    have := h.objs i
    have h1 : redirect o n i < s'.objs.length ↔ i < s.objs.length := by
      have h2 : s'.objs.length ≤ redirect o n i ↔ s.objs.length ≤ i := by
        simp only [← List.getElem?_eq_none_iff, this]
      omega
    simp only [h1]
  · have : redirect o n i ≠ redirect o n j := fun he => hij (redirect_inj h.lt he)
    simp only [this, hij, ↓reduceIte]
    exact h.objs j

theorem Moved.step {o n : Nat} {s s' : Sys V} (env : Env V) (h : Moved o n s s') (op : Op V) :
    (s.step env op).1 = (s'.step env (op.redirect o n)).1 ∧
    Moved o n (s.step env op).2 (s'.step env (op.redirect o n)).2 := by
  have hst : ∀ sts w, Moved o n { s with statics := sts, world := w } { s' with statics := sts, world := w } :=
    fun _ _ => ⟨rfl, rfl, h.lt, h.le, h.len, h.objs⟩
  have hst' : ∀ sts, Moved o n { s with statics := sts } { s' with statics := sts } :=
    fun _ => ⟨rfl, h.world, h.lt, h.le, h.len, h.objs⟩
  have hset : ∀ i x, Moved o n { s with objs := s.objs.set i x } { s' with objs := s'.objs.set (redirect o n i) x } := by
    intro i x
    have := h.set i x s.world
    have hw := h.world
    rw [← hw] at this
    simpa [hw] using this
  cases op with
  | new ms =>
    refine ⟨rfl, h.statics, h.world, h.lt, by simp [Sys.step]; have := h.le; omega, by simp [Sys.step, Op.redirect, h.len], ?_⟩
    intro i
    simp only [Sys.step, Op.redirect]
    have hl := h.len
    have hle := h.le
    have hlt := h.lt
    by_cases hi : i < s.objs.length
    · have h1 : redirect o n i < s'.objs.length := by
        unfold redirect; repeat' split
        all_goals omega
      rw [List.getElem?_append_left h1, List.getElem?_append_left hi, h.objs]
    · have h1 : redirect o n i = i + 1 := by
        unfold redirect; repeat' split
        all_goals omega
      rw [List.getElem?_append_right (by omega), List.getElem?_append_right (by omega), h1, hl]
      congr 1
      omega
  | expect i m k bs =>
    simp only [Sys.step, Op.redirect, h.objs, h.world]
    rcases s.objs[i]? with _ | _ | obj
    · exact ⟨rfl, h⟩
    · exact ⟨rfl, h⟩
    · simp only
      rcases obj.expect env.nightly m k bs s.world with _ | r
      · exact ⟨rfl, h⟩
      · exact ⟨rfl, h.set _ _ _⟩
  | call i m k tid args u =>
    simp only [Sys.step, Op.redirect, h.objs, h.world]
    rcases s.objs[i]? with _ | _ | obj
    · exact ⟨rfl, h⟩
    · exact ⟨rfl, h⟩
    · simp only
      rcases obj.call _ m k args s.world with _ | r
      · exact ⟨rfl, h⟩
      · exact ⟨rfl, h.set _ _ _⟩
  | checkpoint i =>
    simp only [Sys.step, Op.redirect, h.objs]
    rcases s.objs[i]? with _ | _ | obj
    · exact ⟨rfl, h⟩
    · exact ⟨rfl, h⟩
    · exact ⟨rfl, hset _ _⟩
  | drop i pk =>
    simp only [Sys.step, Op.redirect, h.objs]
    rcases s.objs[i]? with _ | _ | obj
    · exact ⟨rfl, h⟩
    · exact ⟨rfl, h⟩
    · exact ⟨rfl, hset _ _⟩
  | sexpect f k bs =>
    simp only [Sys.step, Op.redirect, h.statics, h.world]
    rcases s.statics[f]? with _ | sf
    · exact ⟨rfl, h⟩
    · exact ⟨rfl, hst _ _⟩
  | scall f k tid args =>
    simp only [Sys.step, Op.redirect, h.statics, h.world]
    rcases s.statics[f]? with _ | sf
    · exact ⟨rfl, h⟩
    · exact ⟨rfl, hst _ _⟩
  | scheckpoint f =>
    simp only [Sys.step, Op.redirect, h.statics]
    rcases s.statics[f]? with _ | sf
    · exact ⟨rfl, h⟩
    · exact ⟨rfl, hst' _⟩
  | sdrop f pk =>
    simp only [Sys.step, Op.redirect, h.statics]
    rcases s.statics[f]? with _ | sf
    · exact ⟨rfl, h⟩
    · exact ⟨rfl, hst' _⟩
  | mcheckpoint fs =>
    simp only [Sys.step, Op.redirect, h.statics]
    exact ⟨trivial, hst' _⟩

theorem Moved.run {o n : Nat} {s s' : Sys V} (env : Env V) (h : Moved o n s s') (ops : List (Op V)) :
    (Sys.run env ops s).1 = (Sys.run env (ops.map (Op.redirect o n)) s').1 := by
  induction ops generalizing s s' with
  | nil => rfl
  | cons op ops ih =>
    obtain ⟨h1, h2⟩ := h.step env op
    simp only [List.map_cons, Sys.run]
    rw [h1, ih h2]

/-- **C24**, like new: after a completed checkpoint on object `o`, every later program is observed to run exactly as if,
instead of the checkpoint, a new object with the same methods had been created and used in
place of `o` from then on. -/
theorem C24_like_new (env : Env V) (sts : List (MethodInfo V)) (ops : List (Op V)) (o : Nat) (obj : Obj V)
    (ho : (Sys.run env ops (Sys.init sts)).2.objs[o]? = some (some obj))
    (hok : nextObs env sts ops (.checkpoint o) = .unit (.ok ()) false) (later : List (Op V)) :
    let s := (Sys.run env ops (Sys.init sts)).2
    (Sys.run env later (s.step env (.checkpoint o)).2).1 =
      (Sys.run env (later.map (Op.redirect o s.objs.length)) (s.step env (.new (obj.map (·.mi)))).2).1 := by
  intro s
  change s.objs[o]? = _ at ho
  have hlt : o < s.objs.length := (List.getElem?_eq_some_iff.mp ho).1
  have h1 := (C24_clears env sts ops o obj ho hok).1
  change (s.step env _).2 = { s with objs := s.objs.set o (some (Obj.new (obj.map (·.mi)))) } at h1
  rw [h1]
  apply Moved.run
  refine ⟨rfl, rfl, hlt, by simp, by simp [Sys.step], ?_⟩
  intro i
  change (s.objs ++ [some (Obj.new (obj.map (·.mi)))])[redirect o s.objs.length i]? = (s.objs.set o _)[i]?
  by_cases hi : i = o
  · subst hi
    simp [redirect, hlt]
  · rw [List.getElem?_set_ne (Ne.symm hi)]
    by_cases hl : i < s.objs.length
    · simp only [redirect, hi, hl, ↓reduceIte]
      rw [List.getElem?_append_left hl]
    · simp only [redirect, hi, hl, ↓reduceIte]
      rw [List.getElem?_append_right (by omega), List.getElem?_eq_none (by omega : s.objs.length ≤ i)]
      rw [List.getElem?_eq_none]
      simp; omega

/-! ## C25: the first failure is the one reported -/

/-- The expectations of a store with their instantiations, in the order of verification. -/
def Store.listing (env : Env V) : Store V → List (Key × Expectation V)
  | .concrete es => es.map fun e => (0, e)
  | .generic m => (env.ord m).flatMap fun p => p.2.map fun e => (p.1, e)

theorem Store.listing_elems (env : Env V) (st : Store V) : (st.listing env).map (·.2) = st.elems env := by
  cases st with
  | concrete es => simp [Store.listing, Store.elems, Function.comp_def]
  | generic m =>
    simp only [Store.listing, Store.elems, List.map_flatMap, List.map_map]
    congr 1
    funext p
    simp [Function.comp_def]

theorem GMap.flat_get (m : GMap V) (h : (m.map (·.1)).Nodup) (k : Key) :
    ((m.flatMap fun p => p.2.map fun e => (p.1, e)).filter (fun x => x.1 == k)).map (·.2) =
      (GMap.get m k).getD [] := by
  induction m with
  | nil => rfl
  | cons p m ih =>
    rw [List.map_cons, List.nodup_cons] at h
    obtain ⟨k1, es⟩ := p
    simp only [List.flatMap_cons, List.filter_append, List.map_append, ih h.2, List.filter_map, Function.comp_def]
    by_cases hk : k1 = k
    · subst hk
      have hn : GMap.get m k1 = none := by
        rcases hg : GMap.get m k1 with _ | es'
        · rfl
        · exact absurd (List.mem_map_of_mem (GMap.mem_of_get hg)) h.1
      rw [hn]
      simp [GMap.get, Function.comp_def]
    · have hb : (k1 == k) = false := by simp [hk]
      have : GMap.get ((k1, es) :: m) k = GMap.get m k := by
        unfold GMap.get
        rw [List.find?_cons]
        simp only [hb]
      rw [this]
      simp [hb]

theorem GMap.get_perm {m m' : GMap V} (hp : m'.Perm m) (h : (m.map (·.1)).Nodup) (k : Key) :
    GMap.get m' k = GMap.get m k := by
  have h' : (m'.map (·.1)).Nodup := (hp.map _).nodup_iff.mpr h
  rcases hg : GMap.get m k with _ | es
  · rcases hg' : GMap.get m' k with _ | es'
    · rfl
    · have := GMap.get_of_mem h (hp.mem_iff.mp (GMap.mem_of_get hg'))
      rw [hg] at this; simp at this
  · exact GMap.get_of_mem h' (hp.mem_iff.mpr (GMap.mem_of_get hg))

theorem Store.listing_target {env : Env V} (hf : env.Fair) {st : Store V} (h : st.keys.Nodup) (k : Key) :
    ((st.listing env).filter fun x => !st.isGeneric || x.1 == k).map (·.2) = st.target k := by
  cases st with
  | concrete es => simp [Store.listing, Store.isGeneric, Store.target, List.filter_map, Function.comp_def]
  | generic m =>
    simp only [Store.listing, Store.isGeneric, Store.target, Bool.not_true, Bool.false_or]
    rw [GMap.flat_get _ (((hf m).map _).nodup_iff.mpr h), GMap.get_perm (hf m) h]

/-- The expectations of an object with method and instantiation, in the order of verification. -/
def Obj.listing (env : Env V) : Nat → Obj V → List (Nat × Key × Expectation V)
  | _, [] => []
  | i, s :: ss => ((s.store.listing env).map fun x => (i, x)) ++ Obj.listing env (i + 1) ss

theorem Obj.listing_ge (env : Env V) (i : Nat) (obj : Obj V) : ∀ x ∈ obj.listing env i, i ≤ x.1 := by
  induction obj generalizing i with
  | nil => simp [Obj.listing]
  | cons s ss ih =>
    intro x hx
    simp only [Obj.listing, List.mem_append, List.mem_map] at hx
    rcases hx with ⟨y, _, rfl⟩ | hx
    · exact Nat.le_refl i
    · have := ih _ x hx; omega

theorem Obj.listing_sorted (env : Env V) (i : Nat) (obj : Obj V) :
    ((obj.listing env i).map (·.1)).Pairwise (· ≤ ·) := by
  induction obj generalizing i with
  | nil => simp [Obj.listing]
  | cons s ss ih =>
    simp only [Obj.listing, List.map_append, List.map_map, Function.comp_def]
    rw [List.pairwise_append]
    refine ⟨?_, ih _, ?_⟩
    · rw [List.pairwise_map]
      exact List.pairwise_of_forall (fun _ _ => Nat.le_refl _)
    · intro a ha b hb
      obtain ⟨_, _, rfl⟩ := List.mem_map.mp ha
      obtain ⟨y, hy, rfl⟩ := List.mem_map.mp hb
      have := Obj.listing_ge env _ _ y hy
      omega

theorem Obj.listing_fault (env : Env V) (i : Nat) (obj : Obj V) (g : Nat → FnInfo V)
    (hg : ∀ j s, obj[j]? = some s → g (i + j) = s.mi.base) :
    (obj.order env).findSome? (fun x => x.2.fault x.1) =
      (obj.listing env i).findSome? (fun x => x.2.2.fault (g x.1)) := by
  induction obj generalizing i with
  | nil => rfl
  | cons s ss ih =>
    have h0 := hg 0 s rfl
    simp only [Obj.order, Obj.listing, List.flatMap_cons, List.findSome?_append, findSome?_map_pair,
      List.findSome?_map, Function.comp_def]
    simp only [Nat.add_zero] at h0
    rw [h0, ← Store.listing_elems, List.findSome?_map]
    congr 1
    exact ih (i + 1) fun j s' hs => by
      rw [← hg (j + 1) s' (by simpa using hs)]
      congr 1; omega

theorem Obj.listing_target {env : Env V} (hf : env.Fair) (i : Nat) (obj : Obj V)
    (hs : ∀ s ∈ obj, s.store.keys.Nodup ∧ s.store.isGeneric = s.mi.generic) (j : Nat) (s : Slot V)
    (hj : obj[j]? = some s) (k : Key) :
    ((obj.listing env i).filter fun x => x.1 == i + j && (!s.mi.generic || x.2.1 == k)).map (·.2.2) =
      s.store.target k := by
  induction obj generalizing i j with
  | nil => simp at hj
  | cons s' ss ih =>
    simp only [Obj.listing, List.filter_append, List.map_append]
    cases j with
    | zero =>
      simp at hj
      subst hj
      have h1 : (Obj.listing env (i + 1) ss).filter (fun x => x.1 == i + 0 && (!s'.mi.generic || x.2.1 == k)) = [] := by
        rw [List.filter_eq_nil_iff]
        intro x hx
        have := Obj.listing_ge env _ _ x hx
        have : (x.1 == i + 0) = false := by simp; omega
        rw [this]
        simp
      rw [h1, ← Store.listing_target hf (hs s' (by simp)).1 k]
      simp [List.filter_map, Function.comp_def, (hs s' (by simp)).2]
    | succ j =>
      have h1 : ((s'.store.listing env).map fun x => (i, x)).filter
          (fun x => x.1 == i + (j + 1) && (!s.mi.generic || x.2.1 == k)) = [] := by
        rw [List.filter_eq_nil_iff]
        intro x hx
        obtain ⟨y, _, rfl⟩ := List.mem_map.mp hx
        have : (i == i + (j + 1)) = false := by simp
        simp [this]
      rw [h1]
      have := ih (i + 1) (fun s hs' => hs s (by simp [hs'])) j (by simpa using hj)
      have he : i + 1 + j = i + (j + 1) := by omega
      rw [he] at this
      exact this

/-- `r` is the outcome of verifying the items of `L` in order: the panic of the first that fails. -/
def FirstFailure {α : Type} (L : List α) (check : α → Except Panic Unit) (r : Except Panic Unit) : Prop :=
  (r = .ok () ∧ ∀ x ∈ L, check x = .ok ()) ∨
  ∃ a x b p, L = a ++ x :: b ∧ (∀ y ∈ a, check y = .ok ()) ∧ check x = .error p ∧ r = .error p

theorem firstFailure_fault {α : Type} (L : List α) (e : α → Expectation V) (g : α → FnInfo V) :
    FirstFailure L (fun x => (e x).drop false (g x)) (verdict (L.findSome? fun x => (e x).fault (g x))) := by
  induction L with
  | nil => left; exact ⟨rfl, by simp⟩
  | cons x L ih =>
    rw [List.findSome?_cons]
    rcases hx : (e x).fault (g x) with _ | p
    · have hx' := Expectation.fault_none.mp hx
      rcases ih with ⟨h1, h2⟩ | ⟨a, y, b, p, h1, h2, h3, h4⟩
      · left
        exact ⟨h1, fun y hy => (List.mem_cons.mp hy).elim (fun h => h ▸ hx') (h2 y)⟩
      · right
        refine ⟨x :: a, y, b, p, by simp [h1], ?_, h3, h4⟩
        intro z hz
        exact (List.mem_cons.mp hz).elim (fun h => h ▸ hx') (h2 z)
    · right
      exact ⟨[], x, L, p, rfl, by simp, Expectation.fault_some.mp hx, rfl⟩

/-- `C25_first` with its witnesses named. -/
theorem C25_core (env : Env V) (hf : env.Fair) (sts : List (MethodInfo V)) (ops : List (Op V)) (o : Nat)
    (obj : Obj V) (ho : (Sys.run env ops (Sys.init sts)).2.objs[o]? = some (some obj)) :
    let s := (Sys.run env ops (Sys.init sts)).2
    let L := obj.listing env 0
    ∃ (r : Except Panic Unit) (g : Nat → FnInfo V),
      nextObs env sts ops (.checkpoint o) = .unit r false ∧
      nextObs env sts ops (.drop o false) = .unit r false ∧
      FirstFailure L (fun x => x.2.2.drop false (g x.1)) r ∧
      (L.map (·.1)).Pairwise (· ≤ ·) ∧
      (∀ m k mi, s.infoOf (.inst o m k) = some mi → g m = mi.base ∧
        (L.filter fun x => x.1 == m && (!mi.generic || x.2.1 == k)).map (·.2.2) = s.target (.inst o m k)) := by
  intro s L
  change s.objs[o]? = _ at ho
  have hs := (sorted_run env sts ops).objs o obj ho
  let g : Nat → FnInfo V := fun j => ((obj[j]?).map (·.mi.base)).getD ⟨.static, "", "", none⟩
  have hg : ∀ j sl, obj[j]? = some sl → g (0 + j) = sl.mi.base := by
    intro j sl hj
    simp [g, hj]
  refine ⟨verdict ((obj.listing env 0).findSome? fun x => x.2.2.fault (g x.1)), g,
    ?_, ?_, firstFailure_fault _ _ _, Obj.listing_sorted _ _ _, ?_⟩
  · unfold nextObs
    rw [step_checkpoint _ _ _ _ ho, Obj.checkpoint_eq, Obj.listing_fault env 0 obj g hg]
  · unfold nextObs
    rw [step_drop _ _ _ _ _ ho, Obj.drop_eq, Obj.listing_fault env 0 obj g hg]
  · intro m k mi hi
    simp only [Sys.infoOf, ho] at hi
    rcases hm : obj[m]? with _ | sl
    · rw [hm] at hi; simp at hi
    · rw [hm] at hi
      simp at hi
      subst hi
      have h1 := hg m sl hm
      rw [Nat.zero_add] at h1
      refine ⟨h1, ?_⟩
      have := Obj.listing_target hf 0 obj (fun sl' hsl => by
        obtain ⟨j, hj⟩ := List.getElem?_of_mem hsl
        exact ⟨(hs j sl' hj).keys, (hs j sl' hj).generic⟩) m sl hm k
      rw [Nat.zero_add] at this
      simp only [Sys.target, ho, hm]
      exact this

/-- **C25**: after any program, `checkpoint()` and drop of a live object have the same outcome, with at most one
panic (no abort): that of the first failing expectation of a list `L`.  `L` lists the expectations by
method in declaration order, and for each method, or each instantiation of a generic method, in
the order in which the expectations were declared (`target_sorted`).  C02 says which expectations
fail, and with which message. -/
theorem C25_first (env : Env V) (hf : env.Fair) (sts : List (MethodInfo V)) (ops : List (Op V)) (o : Nat)
    (hlive : ∃ obj, (Sys.run env ops (Sys.init sts)).2.objs[o]? = some (some obj)) :
    let s := (Sys.run env ops (Sys.init sts)).2
    ∃ (r : Except Panic Unit) (L : List (Nat × Key × Expectation V)) (g : Nat → FnInfo V),
      nextObs env sts ops (.checkpoint o) = .unit r false ∧
      nextObs env sts ops (.drop o false) = .unit r false ∧
      FirstFailure L (fun x => x.2.2.drop false (g x.1)) r ∧
      (L.map (·.1)).Pairwise (· ≤ ·) ∧
      (∀ m k mi, s.infoOf (.inst o m k) = some mi → g m = mi.base ∧
        (L.filter fun x => x.1 == m && (!mi.generic || x.2.1 == k)).map (·.2.2) = s.target (.inst o m k)) := by
  intro s
  obtain ⟨obj, ho⟩ := hlive
  obtain ⟨r, g, h⟩ := C25_core env hf sts ops o obj ho
  exact ⟨r, _, g, h⟩

/-! ## C26: no panic while panicking -/

/-- **C26**, part: in any state whatsoever, dropping a live object while its thread is panicking completes,
as far as mockall's own code is concerned.  The destructors of single threaded closures are left out here:
see `C73_unwinding_object` for what they do, and `C26_refuted` for the resulting abort. -/
theorem C26_object_partial (env : Env V) (s : Sys V) (o : Nat) (obj : Obj V) (ho : s.objs[o]? = some (some obj)) :
    (s.step env (.drop o true)).1 = .unit (.ok ()) false := by
  rw [step_drop _ _ _ _ _ ho, Obj.drop_panicking]

/-- **C26**, part, for a `Context`, also if the lock is poisoned. -/
theorem C26_context_partial (env : Env V) (s : Sys V) (f : Nat) (sf : StaticFn V) (hf : s.statics[f]? = some sf) :
    (s.step env (.sdrop f true)).1 = .unit (.ok ()) false := by
  simp [Sys.step, hf, StaticFn.dropContext, dropAll_panicking]

theorem StaticFn.checkpoint_noabort (env : Env V) (sf : StaticFn V) : (sf.checkpoint env false).1.2 = false := by
  unfold StaticFn.checkpoint
  split
  · rfl
  · simp [dropAll_eq]

theorem checkpointModule_noabort (env : Env V) (fs : List Nat) (sts : List (StaticFn V)) (r : Except Panic Unit) (ab : Bool)
    (h : (checkpointModule env fs sts).1 = some (r, ab)) : ab = false := by
  induction fs generalizing sts with
  | nil => simp [checkpointModule] at h; exact h.2
  | cons f fs ih =>
    simp only [checkpointModule] at h
    rcases hf : sts[f]? with _ | sf
    · simp [hf] at h
    · simp only [hf] at h
      have hn := StaticFn.checkpoint_noabort env sf
      rcases hr : (sf.checkpoint env false).1.1 with p | _
      · simp only [hr, Option.some.injEq, Prod.mk.injEq] at h
        rw [← h.2, hn]
      · simp only [hr] at h
        exact ih _ h

/-- **C26**, part, no abort: in any state whatsoever, no operation of a program aborts the process: if several expectations of an
object, of a static function or of a module fail, only one of them panics, whether or not the thread was panicking
before. -/
theorem C26_no_abort_partial (env : Env V) (s : Sys V) (op : Op V) (r : Except Panic Unit) : (s.step env op).1 ≠ .unit r true := by
  intro h
  cases op with
  | mcheckpoint fs =>
    simp only [Sys.step] at h
    rcases hc : (checkpointModule env fs s.statics).1 with _ | ⟨r', ab⟩
    · simp [hc] at h
    · have := checkpointModule_noabort env fs s.statics r' ab hc
      simp [hc, this] at h
  | checkpoint o =>
    simp only [Sys.step] at h
    repeat' split at h
    all_goals simp [Obj.checkpoint_eq] at h
  | drop o pk =>
    simp only [Sys.step] at h
    repeat' split at h
    all_goals cases pk <;> simp [Obj.drop_eq, Obj.drop_panicking] at h
  | scheckpoint f =>
    simp only [Sys.step] at h
    repeat' split at h
    all_goals simp [StaticFn.checkpoint_noabort] at h
  | sdrop f pk =>
    simp only [Sys.step] at h
    repeat' split at h
    all_goals cases pk <;> simp [StaticFn.dropContext, StaticFn.checkpoint_noabort, dropAll_panicking] at h
  | _ =>
    simp only [Sys.step] at h
    repeat' split at h
    all_goals simp at h

/-! ## C27: a failing checkpoint -/

theorem Obj.checkpoint_get (env : Env V) (obj : Obj V) (m : Nat) :
    (obj.checkpoint env false).2[m]? = (obj[m]?).map fun s =>
      if m ≤ obj.findIdx (fun s => (s.store.elems env).any fun e => (e.fault s.mi.base).isSome)
      then { s with store := s.store.drained } else s := by
  rw [Obj.checkpoint_fields]
  generalize obj.findIdx _ = i
  rcases Nat.lt_or_ge m obj.length with hm | hm
  · by_cases hi : m ≤ i
    · rw [List.getElem?_append_left (by simp; omega), List.getElem?_map, List.getElem?_take, if_pos (by omega)]
      simp [hi]
    · rw [List.getElem?_append_right (by simp; omega), List.getElem?_drop]
      simp only [List.length_map, List.length_take]
      rw [Nat.min_eq_left (by omega), show i + 1 + (m - (i + 1)) = m by omega]
      simp [hi]
  · rw [List.getElem?_eq_none hm, List.getElem?_eq_none]
    · rfl
    · simp; omega

/-- **C27**: when `checkpoint()` panics, there is a method `i` (the first with a failing expectation) such that the
expectations of all methods up to `i` are gone, and those of the later methods are as before.
Nothing outside the object changes. -/
theorem C27_failing (env : Env V) (hf : env.Fair) (sts : List (MethodInfo V)) (ops : List (Op V)) (o : Nat) (p : Panic)
    (ab : Bool) (hfail : nextObs env sts ops (.checkpoint o) = .unit (.error p) ab) :
    let s := (Sys.run env ops (Sys.init sts)).2
    let t := (s.step env (.checkpoint o)).2
    (∃ i, (∃ k mi, ∃ e ∈ s.target (.inst o i k), s.infoOf (.inst o i k) = some mi ∧ e.drop false mi.base ≠ .ok ()) ∧
      (∀ m < i, ∀ k mi, s.infoOf (.inst o m k) = some mi → ∀ e ∈ s.target (.inst o m k), e.drop false mi.base = .ok ()) ∧
      (∀ m ≤ i, ∀ k, t.target (.inst o m k) = []) ∧
      (∀ m > i, ∀ k, t.target (.inst o m k) = s.target (.inst o m k))) ∧
    (∀ o' ≠ o, t.objs[o']? = s.objs[o']?) ∧ t.statics = s.statics ∧ t.world = s.world := by
  intro s t
  unfold nextObs at hfail
  change (s.step env _).1 = _ at hfail
  rcases ho : s.objs[o]? with _ | _ | obj
  · simp [Sys.step, ho] at hfail
  · simp [Sys.step, ho] at hfail
  have hs := (sorted_run env sts ops).objs o obj ho
  have ht : t = { s with objs := s.objs.set o (some (obj.checkpoint env false).2) } := by
    simp only [t]; rw [step_checkpoint _ _ _ _ ho]
  rw [step_checkpoint _ _ _ _ ho, Obj.checkpoint_eq] at hfail
  simp only [Obs.unit.injEq] at hfail
  have hlt : o < s.objs.length := (List.getElem?_eq_some_iff.mp ho).1
  have hobs : t.objs[o]? = some (some (obj.checkpoint env false).2) := by rw [ht]; simp [hlt]
  refine ⟨?_, ?_, by rw [ht], by rw [ht]⟩
  · let P : Slot V → Bool := fun s => (s.store.elems env).any fun e => (e.fault s.mi.base).isSome
    refine ⟨obj.findIdx P, ?_, ?_, ?_, ?_⟩
    · have hx : ∃ x ∈ obj, P x = true := by
        rcases hfs : (obj.order env).findSome? (fun x => x.2.fault x.1) with _ | q
        · rw [hfs] at hfail; simp [verdict] at hfail
        · obtain ⟨⟨i, e⟩, hx, he⟩ := List.exists_of_findSome?_eq_some hfs
          simp only [Obj.order, List.mem_flatMap, List.mem_map] at hx
          obtain ⟨sl, hsl, e', he', heq⟩ := hx
          simp at heq
          obtain ⟨rfl, rfl⟩ := heq
          exact ⟨sl, hsl, List.any_eq_true.mpr ⟨e', he', by simp [he]⟩⟩
      have hi := List.findIdx_lt_length_of_exists hx
      have hP := List.findIdx_getElem (w := hi)
      have hget : obj[obj.findIdx P]? = some obj[obj.findIdx P] := List.getElem?_eq_getElem hi
      obtain ⟨e, he, hfe⟩ := List.any_eq_true.mp hP
      obtain ⟨k, hk⟩ := (Store.mem_all_target (hs _ _ hget).keys e).mp ((Store.mem_elems hf _ e).mp he)
      refine ⟨k, obj[obj.findIdx P].mi, e, ?_, ?_, ?_⟩
      · simp only [Sys.target, ho, hget]; exact hk
      · simp only [Sys.infoOf, ho, hget]; rfl
      · intro hd
        rw [Expectation.fault_none.mpr hd] at hfe
        simp at hfe
    · intro m hm k mi hi e he
      simp only [Sys.infoOf, Sys.target, ho] at hi he
      have hnot := List.not_of_lt_findIdx hm
      have hml : m < obj.length := Nat.lt_of_lt_of_le hm List.findIdx_le_length
      have hget : obj[m]? = some obj[m] := List.getElem?_eq_getElem hml
      rw [hget] at hi he
      simp at hi
      subst hi
      have he' := (Store.mem_elems hf _ e).mpr ((Store.mem_all_target (hs _ _ hget).keys e).mpr ⟨k, he⟩)
      rw [← Expectation.fault_none]
      rcases hfe : e.fault obj[m].mi.base with _ | q
      · rfl
      · exfalso
        have : P obj[m] = true := List.any_eq_true.mpr ⟨e, he', by simp [hfe]⟩
        simp [this] at hnot
    · intro m hm k
      simp only [Sys.target, hobs, Obj.checkpoint_get]
      rcases obj[m]? with _ | sl
      · rfl
      · simp only [Option.map_some]
        rw [if_pos hm]
        cases sl.store <;> simp [Store.drained, Store.target, GMap.get]
    · intro m hm k
      simp only [Sys.target, hobs, ho, Obj.checkpoint_get]
      rcases obj[m]? with _ | sl
      · rfl
      · simp only [Option.map_some]
        rw [if_neg (Nat.not_le.mpr hm)]
  · intro o' ho'
    rw [ht]
    simp only [List.getElem?_set_ne (Ne.symm ho')]

/-- **C27** with the counts: after a program in which no matcher of the object panicked, `checkpoint()` panics if some
expectation got a number of calls that its `times` argument does not permit.  Then the expectations of
the first method with such an expectation and of all methods before it are gone, and those of the
later methods are as before. -/
theorem C27_counts (env : Env V) (hf : env.Fair) (sts : List (MethodInfo V)) (ops : List (Op V)) (o : Nat)
    (hlen : (logOf env sts ops).length < usizeMax)
    (hp : ∀ m k, ∀ e ∈ (Sys.run env ops (Sys.init sts)).2.target (.inst o m k), Peaceful ops e)
    (hbad : ∃ m k, ∃ e ∈ (Sys.run env ops (Sys.init sts)).2.target (.inst o m k),
      ¬ permits (countArg e.chain) (callsTo env sts ops e)) :
    let s := (Sys.run env ops (Sys.init sts)).2
    let t := (s.step env (.checkpoint o)).2
    (∃ p, nextObs env sts ops (.checkpoint o) = .unit (.error p) false) ∧
    ∃ i, (∃ k, ∃ e ∈ s.target (.inst o i k), ¬ permits (countArg e.chain) (callsTo env sts ops e)) ∧
      (∀ m < i, ∀ k, ∀ e ∈ s.target (.inst o m k), permits (countArg e.chain) (callsTo env sts ops e)) ∧
      (∀ m ≤ i, ∀ k, t.target (.inst o m k) = []) ∧
      (∀ m > i, ∀ k, t.target (.inst o m k) = s.target (.inst o m k)) := by
  intro s t
  have hinfo : ∀ m k, ∀ e ∈ s.target (.inst o m k), ∃ mi, s.infoOf (.inst o m k) = some mi := by
    intro m k e he
    simp only [Sys.target] at he
    rcases ho : s.objs[o]? with _ | _ | obj <;> simp only [ho] at he
    · simp at he
    · simp at he
    · rcases hm : obj[m]? with _ | sl <;> simp only [hm] at he
      · simp at he
      · exact ⟨sl.mi, by simp only [Sys.infoOf, ho, hm]; rfl⟩
  have hlive : ∃ obj, s.objs[o]? = some (some obj) := by
    obtain ⟨m, k, e, he, _⟩ := hbad
    change e ∈ s.target _ at he
    simp only [Sys.target] at he
    rcases ho : s.objs[o]? with _ | _ | obj <;> simp only [ho] at he
    · simp at he
    · simp at he
    · exact ⟨obj, rfl⟩
  have hok : ∀ m k, ∀ e ∈ s.target (.inst o m k), ∀ i, (e.drop false i = .ok () ↔
      permits (countArg e.chain) (callsTo env sts ops e)) := fun m k e he i =>
    C02_verdict env sts ops i e (target_all _ _ e he) hlen (hp m k e he)
  have hfail : ∃ p, nextObs env sts ops (.checkpoint o) = .unit (.error p) false := by
    obtain ⟨r, hr, hiff⟩ := C24_verdict env env hf sts ops o hlive hlen hp
    rcases r with p | u
    · exact ⟨p, hr⟩
    · exfalso
      obtain ⟨m, k, e, he, hn⟩ := hbad
      exact hn (hiff.mp rfl m k e he)
  refine ⟨hfail, ?_⟩
  obtain ⟨p, hfail⟩ := hfail
  obtain ⟨⟨i, ⟨k, mi, e, he, _, hd⟩, h2, h3, h4⟩, _⟩ := C27_failing env hf sts ops o p false hfail
  refine ⟨i, ⟨k, e, he, fun h => hd ((hok i k e he _).mpr h)⟩, ?_, h3, h4⟩
  intro m hm k e he
  obtain ⟨mi, hmi⟩ := hinfo m k e he
  exact (hok m k e he mi.base).mp (h2 m hm k mi hmi e he)

/-! ## C34: objects and static functions are verified separately -/

/-- **C34**: `checkpoint()` or drop of an object leaves all static functions alone, and its outcome does not depend
on them. -/
theorem C34_object (env : Env V) (s : Sys V) (o : Nat) (pk : Bool) :
    (s.step env (.checkpoint o)).2.statics = s.statics ∧ (s.step env (.drop o pk)).2.statics = s.statics ∧
    ∀ sts, ({ s with statics := sts }.step env (.checkpoint o)).1 = (s.step env (.checkpoint o)).1 ∧
      ({ s with statics := sts }.step env (.drop o pk)).1 = (s.step env (.drop o pk)).1 := by
  simp only [Sys.step]
  rcases s.objs[o]? with _ | _ | obj <;> exact ⟨rfl, rfl, fun _ => ⟨rfl, rfl⟩⟩

/-! ## C29: every instantiation is verified, whatever the order of the hash map -/

/-- **C29** for objects: the checkpoint completes with one iteration order of the hash maps iff it completes with any
other, in every state any program can reach (also if matchers panicked or counts overflowed). -/
theorem C29_order (env e1 e2 : Env V) (h1 : e1.Fair) (h2 : e2.Fair) (sts : List (MethodInfo V)) (ops : List (Op V))
    (o : Nat) :
    ((Sys.run env ops (Sys.init sts)).2.step e1 (.checkpoint o)).1 = .unit (.ok ()) false ↔
    ((Sys.run env ops (Sys.init sts)).2.step e2 (.checkpoint o)).1 = .unit (.ok ()) false := by
  generalize (Sys.run env ops (Sys.init sts)).2 = s
  rcases ho : s.objs[o]? with _ | _ | obj
  · simp [Sys.step, ho]
  · simp [Sys.step, ho]
  · rw [step_checkpoint _ _ _ _ ho, step_checkpoint _ _ _ _ ho, Obj.checkpoint_eq, Obj.checkpoint_eq]
    simp only [Obs.unit.injEq, and_true]
    rw [verdict_ok, verdict_ok]
    have key : ∀ x, x ∈ obj.order e1 ↔ x ∈ obj.order e2 := by
      intro x
      simp only [Obj.order, List.mem_flatMap, List.mem_map, Store.mem_elems h1, Store.mem_elems h2]
    simp only [key]

/-- **C29** for one generic instance method: the checkpoint of an object with this one method completes iff every
expectation of every instantiation got a permitted number of calls. -/
theorem C29_method (env env' : Env V) (hf : env'.Fair) (sts : List (MethodInfo V)) (ops : List (Op V)) (o : Nat)
    (mi : MethodInfo V) (hobj : ∃ sl : Slot V, sl.mi = mi ∧
      (Sys.run env ops (Sys.init sts)).2.objs[o]? = some (some [sl]))
    (hlen : (logOf env sts ops).length < usizeMax)
    (hp : ∀ k, ∀ e ∈ (Sys.run env ops (Sys.init sts)).2.target (.inst o 0 k), Peaceful ops e) :
    ((Sys.run env ops (Sys.init sts)).2.step env' (.checkpoint o)).1 = .unit (.ok ()) false ↔
      ∀ k, ∀ e ∈ (Sys.run env ops (Sys.init sts)).2.target (.inst o 0 k),
        permits (countArg e.chain) (callsTo env sts ops e) := by
  obtain ⟨sl, rfl, ho⟩ := hobj
  have hz : ∀ m k, ∀ e ∈ (Sys.run env ops (Sys.init sts)).2.target (.inst o m k), m = 0 := by
    intro m k e he
    simp only [Sys.target, ho] at he
    cases m with
    | zero => rfl
    | succ m => simp at he
  obtain ⟨r, hr, h⟩ := C24_verdict env env' hf sts ops o ⟨_, ho⟩ hlen (fun m k e he => by
    have := hz m k e he
    subst this
    exact hp k e he)
  rw [hr]
  simp only [Obs.unit.injEq, and_true, h]
  constructor
  · intro h k e he
    exact h 0 k e he
  · intro h m k e he
    have := hz m k e he
    subst this
    exact h k e he

/-! ## The hypotheses are met -/

section Examples

/-- An object with methods `f`, the generic `g` and `h`; `expect` and `call` statements as given:
(method, type arguments, `times` argument) and (method, type arguments). -/
def threeMethods (es : List (Nat × Key × Nat)) (cs : List (Nat × Key)) : List (Op Nat) :=
  .new [⟨false, ⟨.static, "f", "M::f", none⟩, fun _ => some 40⟩, ⟨true, ⟨.static, "g", "M::g", none⟩, fun _ => some 40⟩,
    ⟨false, ⟨.static, "h", "M::h", none⟩, fun _ => some 40⟩] ::
  (es.map (fun e => .expect 0 e.1 e.2.1 [.times (.n e.2.2), .returnConst 5]) ++ cs.map fun c => .call 0 c.1 c.2 0 [] id)

/-- A hash map that iterates backwards. -/
def backwards : Env Nat := ⟨false, toString, List.reverse⟩
theorem backwards_fair : backwards.Fair := fun m => List.reverse_perm m
theorem envOf_fair (n : Bool) : (envOf n).Fair := fun m => List.Perm.refl m

def progOk : List (Op Nat) := threeMethods [(0, 0, 1), (1, 1, 2), (1, 7, 0), (2, 0, 1)] [(1, 1), (0, 0), (2, 0), (1, 1)]
def progBad : List (Op Nat) := threeMethods [(0, 0, 1), (1, 1, 2), (1, 7, 3), (2, 0, 1)] [(1, 1), (0, 0)]

example : nextObs (envOf false) [] progOk (.checkpoint 0) = .unit (.ok ()) false := by rfl

/-- The first failing expectation depends on the order of the hash map; that there is one does not. -/
example : nextObs (envOf false) [] progBad (.checkpoint 0) =
    .unit (.error (.tooFewAtDrop "g" "<anything>" 1 2)) false := by rfl
example : nextObs backwards [] progBad (.checkpoint 0) =
    .unit (.error (.tooFewAtDrop "g" "<anything>" 0 3)) false := by rfl

/-- No matcher of `progBad` panics. -/
theorem progBad_peaceful (m : Nat) (k : Key) (e : Expectation Nat)
    (he : e ∈ (Sys.run (envOf false) progBad (Sys.init [])).2.target (.inst 0 m k)) : Peaceful progBad e := by
  intro op hop tid args upd hc
  rw [← verdict_matches]
  rcases hm : lastOf matcherOf .always e.chain with _ | _ | _ | _ <;> simp [Matcher.matches]
  all_goals
    exfalso
    have hmem := target_all _ _ e he
    revert hm
    have hall : ∀ e ∈ (Sys.run (envOf false) progBad (Sys.init [])).2.all,
        lastOf matcherOf .always e.chain = .always := by
      intro e he
      have : (Sys.run (envOf false) progBad (Sys.init [])).2.all.map (fun e => lastOf matcherOf .always e.chain) =
        [.always, .always, .always, .always] := by rfl
      have h1 : lastOf matcherOf .always e.chain ∈ (Sys.run (envOf false) progBad (Sys.init [])).2.all.map
        (fun e => lastOf matcherOf .always e.chain) := List.mem_map_of_mem he
      rw [this] at h1
      simpa using h1
    rw [hall e hmem]
    simp

/-- `C24_verdict` applied: all hypotheses hold, and the verdict is negative. -/
theorem progBad_unmet : ¬ ∀ m k, ∀ e ∈ (Sys.run (envOf false) progBad (Sys.init [])).2.target (.inst 0 m k),
    permits (countArg e.chain) (callsTo (envOf false) [] progBad e) := by
  obtain ⟨r, hr, h⟩ := C24_verdict (envOf false) backwards backwards_fair [] progBad 0 ⟨_, rfl⟩ (by decide) progBad_peaceful
  have : r ≠ .ok () := by
    have h2 : ((Sys.run (envOf false) progBad (Sys.init [])).2.step backwards (.checkpoint 0)).1 =
      .unit (.error (.tooFewAtDrop "g" "<anything>" 0 3)) false := by rfl
    rw [h2] at hr
    simp at hr
    rw [← hr]
    simp
  exact fun hn => this (h.mpr hn)

/-- `C27_counts` applied: its hypotheses hold for `progBad`. -/
example : ∃ p, nextObs (envOf false) [] progBad (.checkpoint 0) = .unit (.error p) false :=
  (C27_counts (envOf false) (envOf_fair false) [] progBad 0 (by decide) progBad_peaceful
    (by simpa only [Classical.not_forall, not_imp, exists_prop] using progBad_unmet)).1

/-- Both `f` and `g` done, `h` not reached: C27 with the failing method in the middle; the expectation of `h` is still
there, and a second checkpoint reports it. -/
example : (Sys.run (envOf false) (progBad ++ [.checkpoint 0, .call 0 0 0 0 [] id, .checkpoint 0, .checkpoint 0])
      (Sys.init [])).1.drop 7 =
    [.unit (.error (.tooFewAtDrop "g" "<anything>" 1 2)) false,
     .value (.error (.noMatch "M::f()")),
     .unit (.error (.tooFewAtDrop "h" "<anything>" 0 1)) false, .unit (.ok ()) false] := by rfl

/-- A drop while panicking, with unsatisfied expectations and a poisoned matcher. -/
example : let ops := oneExp .static [.withf fun _ => .error (.user "boom"), .times (.n 3)] [(0, [])]
    nextObs (envOf false) [] ops (.drop 0 false) = .unit (.error .poisoned) false ∧
    nextObs (envOf false) [] ops (.drop 0 true) = .unit (.ok ()) false := ⟨by rfl, by rfl⟩

end Examples

end Mockall
