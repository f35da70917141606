import Verif.Spec.Exec
import Verif.Props.DeriveMacros

/-! # C72: generated mocks run as the runtime does -/

namespace Mockall.Props

open Derive Spec

variable {V : Type}

/-! ## The meaning of the code is unique -/

theorem hasField_unique {S : List Item} (h : Accepted S) {s f : Ident} {t t' : FieldTy}
    (k : HasField S s f t) (k' : HasField S s f t') : t = t' := by
  obtain ⟨a, fs, fa, h1, h2⟩ := k
  obtain ⟨a', fs', fa', h1', h2'⟩ := k'
  cases struct_unique h h1 h1'
  have := nodup_map_eq (h.fields _ _ _ h1) h2 h2' rfl
  cases this
  rfl

theorem storeAt_unique {S : List Item} (h : Accepted S) {s : Ident} {p m m' : List Ident} {g g' : Bool}
    (k : StoreAt S s p m g) (k' : StoreAt S s p m' g') : m = m' ∧ g = g' := by
  induction k with
  | here s f m g hf =>
    cases k' with
    | here _ _ _ _ hf' => cases hasField_unique h hf hf'; exact ⟨rfl, rfl⟩
    | sub _ _ _ _ _ _ hf' _ => cases hasField_unique h hf hf'
  | sub s f s' p m g hf hp ih =>
    cases k' with
    | here _ _ _ _ hf' => cases hasField_unique h hf hf'
    | sub _ _ _ _ _ _ hf' hp' => cases hasField_unique h hf hf'; exact ih hp'

theorem isStore_storeAt {S : List Item} {s : Ident} {p m : List Ident} :
    IsStore S s p m ↔ ∃ g, StoreAt S s p m g := by
  constructor
  · intro h
    induction h with
    | here s f m g hf => exact ⟨g, .here _ _ _ _ hf⟩
    | sub s f s' p m hf _ ih => obtain ⟨g, ih⟩ := ih; exact ⟨g, .sub _ _ _ _ _ _ hf ih⟩
  · rintro ⟨g, h⟩
    induction h with
    | here s f m g hf => exact .here _ _ _ _ hf
    | sub s f s' p m g hf _ ih => exact .sub _ _ _ _ _ hf ih

theorem holds_unique {S : List Item} (h : Accepted S) {fs : List Field} {l l' : List (List Ident)}
    (k : Holds S fs l) (k' : Holds S fs l') : l = l' := by
  induction k generalizing l' with
  | nil => cases k'; rfl
  | store _ ih => cases k' with | store k' => rw [ih k']
  | sub hs _ _ ih' ih =>
    cases k' with
    | sub hs' h' k' => cases struct_unique h hs hs'; rw [ih' h', ih k']
  | phantom _ ih => cases k' with | phantom k' => exact ih k'

theorem dropOrder_unique {S : List Item} (h : Accepted S) {s : Ident} {l l' : List (List Ident)}
    (k : DropOrder S s l) (k' : DropOrder S s l') : l = l' := by
  obtain ⟨a, fs, h1, h2⟩ := k
  obtain ⟨a', fs', h1', h2'⟩ := k'
  cases struct_unique h h1 h1'
  exact holds_unique h h2 h2'

/-- There is one `checkpoint` for each struct. -/
def OneCheckpoint (S : List Item) : Prop := ∀ s st st', HasFn S s none "checkpoint" (.checkpoint st) →
  HasFn S s none "checkpoint" (.checkpoint st') → st = st'

theorem runs_unique {S : List Item} (h : Accepted S) (h1 : OneCheckpoint S) {s : Ident}
    {st : List (WithAttrs (List Ident))} {l l' : List (List Ident)} (k : Runs S s st l)
    (k' : Runs S s st l') : l = l' := by
  induction k generalizing l' with
  | nil => cases k'; rfl
  | store hf _ ih =>
    cases k' with
    | store _ k' => rw [ih k']
    | sub hf' => cases hasField_unique h hf hf'
  | sub hf hc _ _ ih' ih =>
    cases k' with
    | store hf' => cases hasField_unique h hf hf'
    | sub hf' hc' h' k' =>
      cases hasField_unique h hf hf'
      cases h1 _ _ _ hc hc'
      rw [ih' h', ih k']

theorem checkpoints_unique {S : List Item} (h : Accepted S) (h1 : OneCheckpoint S) {s : Ident}
    {l l' : List (List Ident)} (k : Checkpoints S s l) (k' : Checkpoints S s l') : l = l' := by
  obtain ⟨st, a, b⟩ := k
  obtain ⟨st', a', b'⟩ := k'
  cases h1 _ _ _ a a'
  exact runs_unique h h1 b b'

/-- The functions that checkpoint. -/
theorem checkpoint_origin {mi : MockItemStruct} {items : List Item} (L : Layout mi items) {c : Config}
    {s n : Ident} {t : Option TraitPath} {st} (h : HasFn (c.strip items) s t n (.checkpoint st)) :
    (s = mi.name ∧ c.body (.checkpoint (mainStmts mi)) = .checkpoint st) ∨
    ∃ x ∈ mi.substructs, c.active (noDocAsync x.attrs) = true ∧ s = x.name ∧
      c.body (.checkpoint (checkpoints x.methods)) = .checkpoint st := by
  obtain ⟨a, fs, hi, ha, f, hf, -, rfl, hb⟩ := hasFn_origin h
  have call : ∀ {m : Meth} {md : Ident}, c.body (m.call md).body ≠ .checkpoint st := by
    intro m md h
    unfold Meth.call at h
    dsimp only at h
    split at h <;> cases h
  rcases L.impls _ _ _ _ hi with ⟨-, rfl, rfl, rfl⟩ | ⟨-, x, hx, ⟨rfl, e⟩, rfl⟩ | ⟨u, hu, hx⟩
  · left
    refine ⟨rfl, ?_⟩
    simp only [mainFns, List.mem_append, List.mem_map, List.mem_singleton, MockItemStruct.newMethod] at hf
    rcases hf with (((⟨m, hm, rfl⟩ | ⟨m, hm, rfl⟩) | ⟨m, hm, rfl⟩) | rfl) | hf
    · exact absurd hb call
    · cases hb
    · cases hb
    · exact hb
    · split at hf
      · cases hf
      · cases List.mem_singleton.1 hf; cases hb
  · right
    cases List.mem_singleton.1 hf
    exact ⟨x, hx, by rw [← e]; exact ha, rfl, hb⟩
  · simp only [MockTrait.implItems, List.mem_cons, Item.impl.injEq, List.not_mem_nil, or_false] at hx
    rcases hx with ⟨rfl, -, rfl, rfl⟩ | ⟨rfl, -, rfl, rfl⟩
    · obtain ⟨m, hm, rfl⟩ := List.mem_map.1 hf
      exact absurd hb call
    · rcases List.mem_append.1 hf with hf | hf <;> obtain ⟨m, -, rfl⟩ := List.mem_map.1 hf <;> cases hb

theorem one_checkpoint {mi : MockItemStruct} {items : List Item} (L : Layout mi items) {c : Config}
    (hs : c.active (mainAttrs mi) = true) (hacc : Accepted (c.strip items)) :
    OneCheckpoint (c.strip items) := by
  intro s st st' h h'
  have hn := (L.allNames c hs).nodup hacc.structs
  rw [List.nodup_cons] at hn
  have main : ∀ x ∈ mi.substructs, c.active (noDocAsync x.attrs) = true → mi.name ≠ x.name := by
    intro x hx ha e
    exact hn.1 (e ▸ List.mem_map.2 ⟨x, List.mem_filter.2 ⟨hx, ha⟩, rfl⟩)
  rcases checkpoint_origin L h with ⟨rfl, e⟩ | ⟨x, hx, ax, rfl, e⟩ <;>
    rcases checkpoint_origin L h' with ⟨e0, e'⟩ | ⟨y, hy, ay, e0, e'⟩
  · exact Body.checkpoint.inj (e.symm.trans e')
  · exact absurd e0 (main y hy ay)
  · exact absurd e0.symm (main x hx ax)
  · have : x = y := nodup_map_eq hn.2 (List.mem_filter.2 ⟨hx, ax⟩) (List.mem_filter.2 ⟨hy, ay⟩) e0
    cases this
    exact Body.checkpoint.inj (e.symm.trans e')

/-! ## Simulation -/

theorem exists_nodup {α : Type} : ∀ l : List α, ∃ l' : List α, l'.Nodup ∧ ∀ x, x ∈ l' ↔ x ∈ l
  | [] => ⟨[], List.nodup_nil, fun _ => Iff.rfl⟩
  | a :: l => by
    obtain ⟨l', h1, h2⟩ := exists_nodup l
    by_cases ha : a ∈ l'
    · refine ⟨l', h1, fun x => ?_⟩
      rw [List.mem_cons, h2]
      constructor
      · exact .inr
      · rintro (rfl | h)
        · exact (h2 _).1 ha
        · exact h
    · exact ⟨a :: l', List.nodup_cons.2 ⟨ha, h1⟩, fun x => by rw [List.mem_cons, List.mem_cons, h2]⟩

/-- The modules of the code. -/
theorem modules_list (S : List Item) : ∃ mods : List (List Ident), mods.Nodup ∧
    ∀ m, m ∈ mods ↔ HasModule S m := by
  obtain ⟨l, h1, h2⟩ := exists_nodup (S.flatMap fun
    | .mod _ m l => l.map fun x => [m, x.val]
    | _ => [])
  refine ⟨l, h1, fun m => ?_⟩
  rw [h2, List.mem_flatMap]
  constructor
  · rintro ⟨x, hx, h⟩
    cases x with
    | mod a n l =>
      obtain ⟨⟨ia, i⟩, hi, rfl⟩ := List.mem_map.1 h
      exact ⟨a, n, l, ia, i, hx, hi, rfl⟩
    | _ => cases h
  · rintro ⟨a, n, l, ia, i, hx, hi, rfl⟩
    exact ⟨_, hx, List.mem_map.2 ⟨_, hi, rfl⟩⟩

theorem map_set_at {α β : Type} [DecidableEq α] {l : List α} (hn : l.Nodup) {i : Nat} {p : α}
    (hi : l[i]? = some p) (f : α → β) (b : β) :
    (l.map fun q => if q = p then b else f q) = (l.map f).set i b := by
  apply List.ext_getElem?
  intro j
  rw [List.getElem?_set, List.getElem?_map, List.getElem?_map]
  have hlt : i < l.length := (List.getElem?_eq_some_iff.1 hi).1
  by_cases e : i = j
  · subst e
    rw [hi, if_pos rfl, if_pos (by rw [List.length_map]; exact hlt)]
    simp
  · rw [if_neg e]
    cases hj : l[j]? with
    | none => rfl
    | some q =>
      have : q ≠ p := by
        rintro rfl
        exact e ((List.getElem?_inj hlt hn).1 (hi.trans hj.symm))
      simp [this]

theorem set_fields {l : List (List Ident)} (hn : l.Nodup) {i : Nat} {p : List Ident} (hi : l[i]? = some p)
    (μ : Fields V) (st : Store V) : l.map (μ.set p st) = (l.map μ).set i { μ p with store := st } :=
  map_set_at hn hi μ _

theorem checkpointAll_other (env : Env V) : ∀ (l : List (List Ident)) (μ : Fields V) (q : List Ident),
    q ∉ l → (checkpointAll env l μ).2 q = μ q
  | [], _, _, _ => rfl
  | p :: l, μ, q, h => by
    obtain ⟨h1, h2⟩ := not_or.1 (mt List.mem_cons.2 h)
    rw [checkpointAll]
    have e : μ.set p (μ p).store.drained q = μ q := if_neg h1
    split
    · exact e
    · rw [checkpointAll_other env l _ q h2, e]

theorem checkpointAll_eq (env : Env V) : ∀ (l : List (List Ident)) (μ : Fields V), l.Nodup →
    (checkpointAll env l μ).1 = (Obj.checkpoint env false (l.map μ)).1 ∧
    l.map (checkpointAll env l μ).2 = (Obj.checkpoint env false (l.map μ)).2
  | [], _, _ => ⟨rfl, rfl⟩
  | p :: l, μ, h => by
    rw [List.nodup_cons] at h
    have rest : l.map (μ.set p (μ p).store.drained) = l.map μ :=
      List.map_congr_left fun q hq => if_neg (fun e : q = p => h.1 (e ▸ hq))
    have self : μ.set p (μ p).store.drained p = { μ p with store := (μ p).store.drained } := if_pos rfl
    have ih := checkpointAll_eq env l (μ.set p (μ p).store.drained) h.2
    rw [rest] at ih
    simp only [checkpointAll, List.map_cons, Obj.checkpoint]
    split
    · rename_i e ab hd
      refine ⟨by simp only [hd], ?_⟩
      simp only [hd]
      rw [rest, self]
    · rename_i ab hd
      simp only [hd]
      refine ⟨ih.1, ?_⟩
      rw [ih.2, checkpointAll_other env l _ p h.1, self]

/-- The state of the generated code and that of the runtime. -/
structure Sim (l mods : List (List Ident)) (σ : GState V) (y : Sys V) : Prop where
  objs : y.objs = σ.objs.map (Option.map fun μ => l.map μ)
  statics : y.statics = mods.map σ.statics
  world : y.world = σ.world

theorem index {α : Type} {l : List α} {x : α} (h : x ∈ l) : ∃ i : Nat, l[i]? = some x := by
  obtain ⟨i, hi, rfl⟩ := List.mem_iff_getElem.1 h
  exact ⟨i, by simp [hi]⟩

theorem sim_step {S : List Item} {s : Ident} {info : List Ident → MethodInfo V} {env : Env V}
    {l mods : List (List Ident)} {ms : List (MethodInfo V)} (hacc : Accepted S) (h1 : OneCheckpoint S)
    (hl : Checkpoints S s l) (hd : DropOrder S s l) (hn : l.Nodup)
    (hmem : ∀ p, p ∈ l ↔ ∃ m, IsStore S s p m) (hmn : mods.Nodup) (hmm : ∀ m, m ∈ mods ↔ HasModule S m)
    (hms : ∀ (i : Nat) p m g, l[i]? = some p → StoreAt S s p m g → ms[i]? = some (infoAt info m g))
    (hlen : ms.length = l.length)
    {σ σ' : GState V} {y : Sys V} {op : GOp V} {x : Obs V} (hsim : Sim l mods σ y)
    (h : GStep S s info env σ op x σ') :
    ∃ op', Same S s l ms mods op op' ∧ (y.step env op').1 = x ∧ Sim l mods σ' (y.step env op').2 := by
  obtain ⟨hobj, hst, hw⟩ := hsim
  have getobj : ∀ {o : Nat} {μ : Fields V}, σ.objs[o]? = some (some μ) → y.objs[o]? = some (some (l.map μ)) := by
    intro o μ h
    rw [hobj, List.getElem?_map, h]
    rfl
  have getfld : ∀ {i : Nat} {p : List Ident} (μ : Fields V), l[i]? = some p → (l.map μ)[i]? = some (μ p) := by
    intro i p μ h
    rw [List.getElem?_map, h]
    rfl
  have getst : ∀ {i : Nat} {m : List Ident}, mods[i]? = some m → y.statics[i]? = some (σ.statics m) := by
    intro i m h
    rw [hst, List.getElem?_map, h]
    rfl
  have setst : ∀ {i : Nat} {m : List Ident} (f : StaticFn V), mods[i]? = some m →
      y.statics.set i f = mods.map (σ.setStatic m f).statics := by
    intro i m f h
    rw [hst]
    exact (map_set_at hmn h σ.statics f).symm
  cases h with
  | new μ hd' hμ =>
    refine ⟨.new ms, .new, rfl, ?_, hst, hw⟩
    simp only [Sys.step, hobj, List.map_append, List.map_cons, List.map_nil, Option.map_some]
    congr 3
    apply List.ext_getElem?
    intro i
    rw [Obj.new, List.getElem?_map, List.getElem?_map]
    cases hi : l[i]? with
    | none =>
      have : ms[i]? = none := by
        rw [List.getElem?_eq_none_iff] at hi ⊢
        omega
      rw [this]
      rfl
    | some p =>
      obtain ⟨m, hp⟩ := (hmem p).1 (List.mem_of_getElem? hi)
      obtain ⟨g, hp⟩ := isStore_storeAt.1 hp
      rw [hms i p m g hi hp]
      simp [hμ p m g hp]
  | expect o n k bs μ p m g ho hf hp =>
    obtain ⟨i, hi⟩ := index ((hmem p).2 ⟨m, isStore_storeAt.2 ⟨g, hp⟩⟩)
    refine ⟨.expect o i k bs, .expect _ _ _ _ _ _ _ hf hi, ?_, ?_⟩
    · simp only [Sys.step, getobj ho, Obj.expect, getfld μ hi, hw]
    · simp only [Sys.step, getobj ho, Obj.expect, getfld μ hi, hw]
      refine ⟨?_, hst, rfl⟩
      rw [hobj, List.map_set, Option.map_some, set_fields hn hi]
  | call o t n k tid args upd μ p m g ho hf hp cx hcx =>
    subst hcx
    obtain ⟨i, hi⟩ := index ((hmem p).2 ⟨m, isStore_storeAt.2 ⟨g, hp⟩⟩)
    refine ⟨.call o i k tid args upd, .call _ _ _ _ _ _ _ _ _ hf hi, ?_, ?_⟩
    · simp only [Sys.step, getobj ho, Obj.call, getfld μ hi, hw]
    · simp only [Sys.step, getobj ho, Obj.call, getfld μ hi, hw]
      refine ⟨?_, hst, rfl⟩
      rw [hobj, List.map_set, Option.map_some, set_fields hn hi]
  | checkpoint o μ l' ho hl' =>
    cases checkpoints_unique hacc h1 hl hl'
    obtain ⟨e1, e2⟩ := checkpointAll_eq env l μ hn
    refine ⟨.checkpoint o, .checkpoint _, ?_, ?_⟩
    · simp only [Sys.step, getobj ho, e1]
    · simp only [Sys.step, getobj ho]
      refine ⟨?_, hst, hw⟩
      rw [hobj, List.map_set, Option.map_some, e2]
  | drop o b μ l' ho hl' =>
    cases dropOrder_unique hacc hd hl'
    refine ⟨.drop o b, .drop _ _, ?_, ?_⟩
    · simp only [Sys.step, getobj ho]
    · simp only [Sys.step, getobj ho]
      refine ⟨?_, hst, hw⟩
      rw [hobj, List.map_set, Option.map_none]
  | scall t n k tid args m hf hm r hr =>
    subst hr
    obtain ⟨i, hi⟩ := index ((hmm m).2 hm)
    refine ⟨.scall i k tid args, .scall _ _ _ _ _ _ _ hf hi, ?_, ?_⟩
    · simp only [Sys.step, getst hi, hw]
    · simp only [Sys.step, getst hi, hw]
      exact ⟨hobj, setst _ hi, rfl⟩
  | sexpect n k bs m hf hm r hr =>
    subst hr
    obtain ⟨i, hi⟩ := index ((hmm m).2 hm)
    refine ⟨.sexpect i k bs, .sexpect _ _ _ _ _ hf hi, ?_, ?_⟩
    · simp only [Sys.step, getst hi, hw]
    · simp only [Sys.step, getst hi, hw]
      exact ⟨hobj, setst _ hi, rfl⟩
  | scheckpoint n m hf hm r hr =>
    subst hr
    obtain ⟨i, hi⟩ := index ((hmm m).2 hm)
    refine ⟨.scheckpoint i, .scheckpoint _ _ _ hf hi, ?_, ?_⟩
    · simp only [Sys.step, getst hi]
    · simp only [Sys.step, getst hi]
      exact ⟨hobj, setst _ hi, hw⟩
  | sdrop n b m hf hm r hr =>
    subst hr
    obtain ⟨i, hi⟩ := index ((hmm m).2 hm)
    refine ⟨.sdrop i b, .sdrop _ _ _ _ hf hi, ?_, ?_⟩
    · simp only [Sys.step, getst hi]
    · simp only [Sys.step, getst hi]
      exact ⟨hobj, setst _ hi, hw⟩

theorem sim_run {S : List Item} {s : Ident} {info : List Ident → MethodInfo V} {env : Env V}
    {l mods : List (List Ident)} {ms : List (MethodInfo V)} (hacc : Accepted S) (h1 : OneCheckpoint S)
    (hl : Checkpoints S s l) (hd : DropOrder S s l) (hn : l.Nodup)
    (hmem : ∀ p, p ∈ l ↔ ∃ m, IsStore S s p m) (hmn : mods.Nodup) (hmm : ∀ m, m ∈ mods ↔ HasModule S m)
    (hms : ∀ (i : Nat) p m g, l[i]? = some p → StoreAt S s p m g → ms[i]? = some (infoAt info m g))
    (hlen : ms.length = l.length)
    {σ τ : GState V} {ops : List (GOp V)} {xs : List (Obs V)} (h : GRun S s info env σ ops xs τ) :
    ∀ {y : Sys V}, Sim l mods σ y →
    ∃ ops', Pointwise (Same S s l ms mods) ops ops' ∧ (Sys.run env ops' y).1 = xs ∧
      Sim l mods τ (Sys.run env ops' y).2 := by
  induction h with
  | nil => exact fun {y} hs => ⟨[], .nil, rfl, hs⟩
  | cons h _ ih =>
    intro y hs
    obtain ⟨op', a1, a2, a3⟩ := sim_step hacc h1 hl hd hn hmem hmn hmm hms hlen hs h
    obtain ⟨ops', b1, b2, b3⟩ := ih a3
    exact ⟨op' :: ops', .cons a1 b1, by rw [Sys.run, a2, b2], b3⟩

theorem slots_list {S : List Item} {s : Ident} (info : List Ident → MethodInfo V) :
    ∀ l : List (List Ident), (∀ p ∈ l, ∃ m, IsStore S s p m) →
      ∃ ms, Pointwise (fun p mi => ∃ m g, StoreAt S s p m g ∧ mi = infoAt info m g) l ms
  | [], _ => ⟨[], .nil⟩
  | p :: l, h => by
    obtain ⟨m, hp⟩ := h p List.mem_cons_self
    obtain ⟨g, hp⟩ := isStore_storeAt.1 hp
    obtain ⟨ms, hms⟩ := slots_list info l fun q hq => h q (List.mem_cons_of_mem _ hq)
    exact ⟨infoAt info m g :: ms, .cons ⟨m, g, hp, rfl⟩ hms⟩

theorem pointwise_at {α β : Type} {R : α → β → Prop} {l : List α} {k : List β} (h : Pointwise R l k) :
    l.length = k.length ∧ ∀ (i : Nat) a, l[i]? = some a → ∃ b, k[i]? = some b ∧ R a b := by
  induction h with
  | nil => exact ⟨rfl, fun i a h => by simp at h⟩
  | cons hr _ ih =>
    refine ⟨by rw [List.length_cons, List.length_cons, ih.1], fun i a h => ?_⟩
    cases i with
    | zero => cases h; exact ⟨_, rfl, hr⟩
    | succ i => exact ih.2 i a h

/-- C72.  The struct that is generated for a definition has, in every configuration in which it is compiled
and accepted, a list of stores `l`: no store is missing, none is listed twice.  A program that uses the
generated functions sees what the same program sees on the objects of the runtime that have these stores in
this order. -/
theorem C72_behaves (hash : List Args → Nat) (m : MockableStruct) (items : List Item)
    (h : expandStruct hash m = .ok items) (c : Config) (hs : ∀ a ∈ m.attrs, c.lets a = true)
    (hacc : Accepted (c.strip items)) (info : List Ident → MethodInfo V) (env : Env V) :
    ∃ (l mods : List (List Ident)) (ms : List (MethodInfo V)),
      l.Nodup ∧ (∀ p, p ∈ l ↔ ∃ module, IsStore (c.strip items) m.name p module) ∧
      Pointwise (fun p mi => ∃ module g, StoreAt (c.strip items) m.name p module g ∧ mi = infoAt info module g) l ms ∧
      mods.Nodup ∧ (∀ q, q ∈ mods ↔ HasModule (c.strip items) q) ∧
      ∀ ops xs σ, GRun (c.strip items) m.name info env (.init info) ops xs σ →
        ∃ ops', Pointwise (Same (c.strip items) m.name l ms mods) ops ops' ∧
          (Sys.run env ops' (.init (mods.map info))).1 = xs := by
  obtain ⟨l, k1, k2, k3, k4⟩ := C52_checkpoint hash m items h c hs hacc
  obtain ⟨mi, e1, ⟨L⟩⟩ := expand_steps h
  have hone : OneCheckpoint (c.strip items) := by
    refine one_checkpoint L ?_ hacc
    simp only [mockItemStruct, gen_bind_ok, gen_pure_ok] at e1
    obtain ⟨_, -, _, -, rfl⟩ := e1
    exact active_format_of c _ _ hs
  obtain ⟨mods, m1, m2⟩ := modules_list (c.strip items)
  obtain ⟨ms, hms⟩ := slots_list (S := c.strip items) (s := m.name) info l fun p hp => (k4 p).1 hp
  refine ⟨l, mods, ms, k3, k4, hms, m1, m2, fun ops xs σ hr => ?_⟩
  obtain ⟨hlen, hat⟩ := pointwise_at hms
  obtain ⟨ops', r1, r2, -⟩ := sim_run hacc hone k1 k2 k3 k4 m1 m2
    (fun i p md g hi hp => by
      obtain ⟨b, hb, md', g', hp', rfl⟩ := hat i p hi
      obtain ⟨rfl, rfl⟩ := storeAt_unique hacc hp hp'
      exact hb) hlen.symm hr (y := .init (mods.map info))
    ⟨rfl, by simp [Sys.init, GState.init], rfl⟩
  exact ⟨ops', r1, r2⟩

/-! ## Nothing is missing -/

theorem holds_defaults {S : List Item}
    (hd : ∀ h n fs, .struct h n fs ∈ S → ∃ a inits, .dflt a n inits ∈ S ∧
      inits.map WithAttrs.val = fs.map Field.name) {fs : List Field} {l : List (List Ident)}
    (h : Holds S fs l) : ∀ fa f s', ⟨fa, f, .sub s'⟩ ∈ fs → Defaults S s' := by
  induction h with
  | nil => intro _ _ _ h; cases h
  | store _ ih =>
    intro fa f s' h
    rcases List.mem_cons.1 h with e | h
    · cases e
    · exact ih fa f s' h
  | sub hs _ _ ih' ih =>
    intro fa f s' h
    rcases List.mem_cons.1 h with e | h
    · cases e
      obtain ⟨a, inits, k1, k2⟩ := hd _ _ _ hs
      exact .mk _ _ _ a inits hs k1 k2 ih'
    · exact ih fa f s' h
  | phantom _ ih =>
    intro fa f s' h
    rcases List.mem_cons.1 h with e | h
    · cases e
    · exact ih fa f s' h

theorem fields_exist {S : List Item} (h : Accepted S) (s : Ident) (info : List Ident → MethodInfo V) :
    ∃ μ : Fields V, ∀ p module g, StoreAt S s p module g →
      μ p = ⟨infoAt info module g, .new (infoAt info module g)⟩ := by
  classical
  refine ⟨fun p => if k : ∃ mg : List Ident × Bool, StoreAt S s p mg.1 mg.2 then
      ⟨infoAt info k.choose.1 k.choose.2, .new (infoAt info k.choose.1 k.choose.2)⟩
    else ⟨info [], .new (info [])⟩, fun p md g hp => ?_⟩
  have k : ∃ mg : List Ident × Bool, StoreAt S s p mg.1 mg.2 := ⟨(md, g), hp⟩
  obtain ⟨e1, e2⟩ := storeAt_unique h k.choose_spec hp
  simp only [dif_pos k, e1, e2]

/-- C72: mocks can be made, checkpointed and dropped, whatever happened before: no field is left out and no
function is missing. -/
theorem C72_object (hash : List Args → Nat) (m : MockableStruct) (items : List Item)
    (h : expandStruct hash m = .ok items) (c : Config) (hs : ∀ a ∈ m.attrs, c.lets a = true)
    (hacc : Accepted (c.strip items)) (info : List Ident → MethodInfo V) (env : Env V) (σ : GState V) :
    (∃ x σ', GStep (c.strip items) m.name info env σ .new x σ') ∧
    ∀ o μ, σ.objs[o]? = some (some μ) →
      (∃ x σ', GStep (c.strip items) m.name info env σ (.checkpoint o) x σ') ∧
      ∀ b, ∃ x σ', GStep (c.strip items) m.name info env σ (.drop o b) x σ' := by
  obtain ⟨l, k1, k2, -, -⟩ := C52_checkpoint hash m items h c hs hacc
  refine ⟨?_, fun o μ ho => ⟨⟨_, _, .checkpoint σ o μ l ho k1⟩, fun b => ⟨_, _, .drop σ o b μ l ho k2⟩⟩⟩
  obtain ⟨μ, hμ⟩ := fields_exist hacc m.name info
  obtain ⟨a, fs, hst, hh⟩ := k2
  have hd := fun hd n fs => C68_default hash m items h c hd n fs
  obtain ⟨a', inits, i1, i2⟩ := hd _ _ _ hst
  exact ⟨_, _, .new σ μ (.mk _ _ _ a' inits hst i1 i2 (holds_defaults hd hh)) hμ⟩

/-- C72: instance methods can be called and expected, at any time and with any arguments, on any mock that is
alive. -/
theorem C72_instance (hash : List Args → Nat) (m : MockableStruct) (items : List Item)
    (h : expandStruct hash m = .ok items) (c : Config) (hs : ∀ a ∈ m.attrs, c.lets a = true)
    (f : ImplFn) (hf : f ∈ m.methods) (hi : IsMethod f.sig.inputs) (ha : ∀ a ∈ f.attrs, c.lets a = true)
    (info : List Ident → MethodInfo V) (env : Env V) (σ : GState V) (o : Nat) (μ : Fields V)
    (ho : σ.objs[o]? = some (some μ)) :
    (∀ k bs, ∃ x σ', GStep (c.strip items) m.name info env σ (.expect o ("expect_" ++ f.sig.ident) k bs) x σ') ∧
    ∀ k tid args upd, ∃ x σ', GStep (c.strip items) m.name info env σ
      (.call o none f.sig.ident k tid args upd) x σ' := by
  obtain ⟨md, k1, k2, k3, -⟩ := C52_instance hash m items h c hs f hf hi ha
  obtain ⟨g, hg⟩ := isStore_storeAt.1 k3
  exact ⟨fun k bs => ⟨_, _, .expect σ o _ k bs μ _ md g ho k2 hg⟩,
    fun k tid args upd => ⟨_, _, .call σ o none _ k tid args upd μ _ md g ho k1 hg _ rfl⟩⟩

/-- C72: as `C72_instance`, for the methods of traits. -/
theorem C72_trait (hash : List Args → Nat) (m : MockableStruct) (items : List Item)
    (h : expandStruct hash m = .ok items) (c : Config) (hs : ∀ a ∈ m.attrs, c.lets a = true)
    (p : TraitPath) (pre post : List ItemImpl) (i₀ i : ItemImpl) (hm : m.impls = pre ++ i₀ :: post)
    (hi : i ∈ m.impls) (hp₀ : i₀.trait = some p) (hp : i.trait = some p) (hty : IsPathTo m.name i.selfTy)
    (hfirst : ∀ j ∈ pre, j.trait ≠ some p) (f₀ f : ImplFn) (hf₀ : .fn f₀ ∈ i₀.items) (hf : .fn f ∈ i.items)
    (hn : f₀.sig.ident = f.sig.ident) (h₀ : IsMethod f₀.sig.inputs) (h₁ : IsMethod f.sig.inputs)
    (ha : ∀ l ∈ [i₀.attrs, f₀.attrs, i.attrs, f.attrs], ∀ a ∈ l, c.lets a = true)
    (info : List Ident → MethodInfo V) (env : Env V) (σ : GState V) (o : Nat) (μ : Fields V)
    (ho : σ.objs[o]? = some (some μ)) :
    (∀ k bs, ∃ x σ', GStep (c.strip items) m.name info env σ (.expect o ("expect_" ++ f.sig.ident) k bs) x σ') ∧
    ∀ k tid args upd, ∃ x σ', GStep (c.strip items) m.name info env σ
      (.call o (some p) f.sig.ident k tid args upd) x σ' := by
  obtain ⟨pl, md, k1, k2, k3, -⟩ :=
    C52_trait hash m items h c hs p pre post i₀ i hm hi hp₀ hp hty hfirst f₀ f hf₀ hf hn h₀ h₁ ha
  obtain ⟨g, hg⟩ := isStore_storeAt.1 k3
  exact ⟨fun k bs => ⟨_, _, .expect σ o _ k bs μ _ md g ho k2 hg⟩,
    fun k tid args upd => ⟨_, _, .call σ o (some p) _ k tid args upd μ _ md g ho k1 hg _ rfl⟩⟩

/-- C72: static methods can be called, and their contexts used, at any time. -/
theorem C72_static (hash : List Args → Nat) (m : MockableStruct) (items : List Item)
    (h : expandStruct hash m = .ok items) (c : Config) (hs : ∀ a ∈ m.attrs, c.lets a = true)
    (hacc : Accepted (c.strip items)) (f : ImplFn) (hf : f ∈ m.methods) (hi : ¬ IsMethod f.sig.inputs)
    (ha : ∀ a ∈ f.attrs, c.lets a = true)
    (info : List Ident → MethodInfo V) (env : Env V) (σ : GState V) :
    let step := fun op => ∃ x σ', GStep (c.strip items) m.name info env σ op x σ'
    (∀ k tid args, step (.scall none f.sig.ident k tid args)) ∧
    (∀ k bs, step (.sexpect (f.sig.ident ++ "_context") k bs)) ∧
    step (.scheckpoint (f.sig.ident ++ "_context")) ∧
    ∀ b, step (.sdrop (f.sig.ident ++ "_context") b) := by
  obtain ⟨md, k1, k2, k3, -⟩ := C52_static hash m items h c hs hacc f hf hi ha
  exact ⟨fun k tid args => ⟨_, _, .scall σ none _ k tid args md k1 k3 _ rfl⟩,
    fun k bs => ⟨_, _, .sexpect σ _ k bs md k2 k3 _ rfl⟩,
    ⟨_, _, .scheckpoint σ _ md k2 k3 _ rfl⟩, fun b => ⟨_, _, .sdrop σ _ b md k2 k3 _ rfl⟩⟩

/-- Mocks live until they are dropped. -/
theorem step_alive {S : List Item} {s : Ident} {info : List Ident → MethodInfo V} {env : Env V} {σ σ' : GState V}
    {op : GOp V} {x : Obs V} (h : GStep S s info env σ op x σ') {o : Nat} (hne : ∀ b, op ≠ .drop o b)
    {μ : Fields V} (ho : σ.objs[o]? = some (some μ)) : ∃ μ' : Fields V, σ'.objs[o]? = some (some μ') := by
  have hlt : o < σ.objs.length := (List.getElem?_eq_some_iff.1 ho).1
  have set : ∀ (o' : Nat) (ν : Fields V), ∃ μ' : Fields V, (σ.objs.set o' (some ν))[o]? = some (some μ') := by
    intro o' ν
    rw [List.getElem?_set]
    split
    · exact ⟨ν, by simp [*]⟩
    · exact ⟨μ, ho⟩
  cases h with
  | new ν => exact ⟨μ, by rw [List.getElem?_append_left hlt]; exact ho⟩
  | expect o' => exact set o' _
  | call o' => exact set o' _
  | checkpoint o' => exact set o' _
  | drop o' b =>
    refine ⟨μ, ?_⟩
    have : o' ≠ o := fun e => hne b (e ▸ rfl)
    simpa [List.getElem?_set, this] using ho
  | scall => exact ⟨μ, ho⟩
  | sexpect => exact ⟨μ, ho⟩
  | scheckpoint => exact ⟨μ, ho⟩
  | sdrop => exact ⟨μ, ho⟩

/-- Programs that use the mock of the example: one that expects and calls its methods, of its own and static, runs. -/
example (info : List Ident → MethodInfo V) (env : Env V) (k : Key) (bs : List (Build V)) (a : V) :
    ∃ items xs σ, expandStruct (fun _ => 0) exStruct = .ok items ∧ Accepted (unix.strip items) ∧
      GRun (unix.strip items) "MockFoo" info env (.init info)
        [.new, .expect 0 "expect_foo" k bs, .call 0 none "foo" k 0 [a] id, .scall none "stat" k 0 [],
          .checkpoint 0, .drop 0 false] xs σ := by
  have h : (expandStruct (fun _ => 0) exStruct).toOption.map (fun l => accepts (unix.strip l)) =
    some true := by decide +kernel
  cases he : expandStruct (fun _ => 0) exStruct with
  | error e => rw [he] at h; cases h
  | ok items =>
    rw [he] at h
    simp only [Except.toOption, Option.map_some, Option.some.injEq] at h
    have hacc := accepted_of h
    have hs : ∀ a ∈ exStruct.attrs, unix.lets a = true := nofun
    have obj := fun σ => C72_object _ exStruct items he unix hs hacc info env σ
    have meth := C72_instance _ exStruct items he unix hs
      { sig := { ident := "foo", inputs := [selfArg] } } List.mem_cons_self (by simp [IsMethod, selfArg]) nofun info env
    have stat := C72_static _ exStruct items he unix hs hacc { sig := { ident := "stat" } }
      (by simp [exStruct]) (by simp [IsMethod]) nofun info env
    obtain ⟨x1, σ1, h1⟩ := (obj (.init info)).1
    have a1 : ∃ μ, σ1.objs[0]? = some (some μ) := by
      cases h1 with
      | new μ => exact ⟨μ, rfl⟩
    obtain ⟨μ1, a1⟩ := a1
    obtain ⟨x2, σ2, h2⟩ := (meth σ1 0 μ1 a1).1 k bs
    obtain ⟨μ2, a2⟩ := step_alive h2 nofun a1
    obtain ⟨x3, σ3, h3⟩ := (meth σ2 0 μ2 a2).2 k 0 [a] id
    obtain ⟨μ3, a3⟩ := step_alive h3 nofun a2
    obtain ⟨x4, σ4, h4⟩ := (stat σ3).1 k 0 []
    obtain ⟨μ4, a4⟩ := step_alive h4 nofun a3
    obtain ⟨x5, σ5, h5⟩ := ((obj σ4).2 0 μ4 a4).1
    obtain ⟨μ5, a5⟩ := step_alive h5 nofun a4
    obtain ⟨x6, σ6, h6⟩ := ((obj σ5).2 0 μ5 a5).2 false
    exact ⟨items, _, σ6, rfl, hacc, .cons h1 (.cons h2 (.cons h3 (.cons h4 (.cons h5 (.cons h6 (.nil σ6))))))⟩

end Mockall.Props
