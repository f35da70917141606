import Verif.Lemmas.Embed
import Verif.Props.DeriveExec
import Verif.Props.DeriveModule

/-! # C83: programs with several mocks run as the runtime does -/

namespace Mockall.Props

open Derive Spec

variable {V : Type}

/-! ## One mock module -/

theorem checkpointBlocks_objs (env : Env V) : ∀ (l : List Ident) (σ : GState V),
    (checkpointBlocks env l σ).2.objs = σ.objs ∧ (checkpointBlocks env l σ).2.world = σ.world
  | [], _ => ⟨rfl, rfl⟩
  | n :: l, σ => by
    rw [checkpointBlocks]
    split
    · exact ⟨rfl, rfl⟩
    · exact checkpointBlocks_objs env l _

theorem checkpointBlocks_eq (env : Env V) {mods : List (List Ident)} (hn : mods.Nodup)
    {l : List (WithAttrs Ident)} {fs : List Nat} (h : Pointwise (fun x (i : Nat) => mods[i]? = some [x.val]) l fs) :
    ∀ σ : GState V,
    (checkpointModule env fs (mods.map σ.statics)).1 =
      some (checkpointBlocks env (l.map WithAttrs.val) σ).1 ∧
    (checkpointModule env fs (mods.map σ.statics)).2 =
      mods.map (checkpointBlocks env (l.map WithAttrs.val) σ).2.statics := by
  induction h with
  | nil => exact fun σ => ⟨rfl, rfl⟩
  | @cons x i l fs hi _ ih =>
    intro σ
    have hget : (mods.map σ.statics)[i]? = some (σ.statics [x.val]) := by
      rw [List.getElem?_map, hi]; rfl
    have hset : ∀ f, (mods.map σ.statics).set i f = mods.map (σ.setStatic [x.val] f).statics :=
      fun f => (map_set_at hn hi σ.statics f).symm
    simp only [checkpointModule, hget, List.map_cons, checkpointBlocks]
    rcases hr : (σ.statics [x.val]).checkpoint env false with ⟨⟨r, ab⟩, f⟩
    cases r with
    | error p => exact ⟨rfl, hset f⟩
    | ok u =>
      simp only [hset]
      exact ih _

theorem index_blocks {mods : List (List Ident)} : ∀ {l : List (WithAttrs Ident)}, (∀ b ∈ l, [b.val] ∈ mods) →
    ∃ fs, Pointwise (fun x (i : Nat) => mods[i]? = some [x.val]) l fs
  | [], _ => ⟨[], .nil⟩
  | b :: l, h => by
    obtain ⟨i, hi⟩ := index (h b List.mem_cons_self)
    obtain ⟨fs, hfs⟩ := index_blocks fun b hb => h b (List.mem_cons_of_mem _ hb)
    exact ⟨i :: fs, .cons hi hfs⟩

theorem sim_module {S : List ModOut} {env : Env V} {l mods : List (List Ident)} (hmn : mods.Nodup)
    (hmm : ∀ q, q ∈ mods ↔ ∃ n ∈ modules S, q = [n]) {σ σ' : GState V} {y : Sys V} {op : MOp V} {x : Obs V}
    (hsim : Sim l mods σ y) (h : MStep S env σ op x σ') :
    ∃ op', MSame S mods op op' ∧ (y.step env op').1 = x ∧ Sim l mods σ' (y.step env op').2 := by
  obtain ⟨hobj, hst, hw⟩ := hsim
  have getst : ∀ {i : Nat} {m : List Ident}, mods[i]? = some m → y.statics[i]? = some (σ.statics m) := by
    intro i m h
    rw [hst, List.getElem?_map, h]
    rfl
  have setst : ∀ {i : Nat} {m : List Ident} (f : StaticFn V), mods[i]? = some m →
      y.statics.set i f = mods.map (σ.setStatic m f).statics := by
    intro i m f h
    rw [hst]
    exact (map_set_at hmn h σ.statics f).symm
  cases h with
  | call n k tid args m hf hm r hr =>
    subst hr
    obtain ⟨i, hi⟩ := index ((hmm [m]).2 ⟨m, hm, rfl⟩)
    refine ⟨.scall i k tid args, .call _ _ _ _ _ _ hf hi, ?_, ?_⟩
    · simp only [Sys.step, getst hi, hw]
    · simp only [Sys.step, getst hi, hw]
      exact ⟨hobj, setst _ hi, rfl⟩
  | expect n k bs m hf hm r hr =>
    subst hr
    obtain ⟨i, hi⟩ := index ((hmm [m]).2 ⟨m, hm, rfl⟩)
    refine ⟨.sexpect i k bs, .expect _ _ _ _ _ hf hi, ?_, ?_⟩
    · simp only [Sys.step, getst hi, hw]
    · simp only [Sys.step, getst hi, hw]
      exact ⟨hobj, setst _ hi, rfl⟩
  | checkpoint n m hf hm r hr =>
    subst hr
    obtain ⟨i, hi⟩ := index ((hmm [m]).2 ⟨m, hm, rfl⟩)
    refine ⟨.scheckpoint i, .checkpoint _ _ _ hf hi, ?_, ?_⟩
    · simp only [Sys.step, getst hi]
    · simp only [Sys.step, getst hi]
      exact ⟨hobj, setst _ hi, hw⟩
  | drop n b m hf hm r hr =>
    subst hr
    obtain ⟨i, hi⟩ := index ((hmm [m]).2 ⟨m, hm, rfl⟩)
    refine ⟨.sdrop i b, .drop _ _ _ _ hf hi, ?_, ?_⟩
    · simp only [Sys.step, getst hi]
    · simp only [Sys.step, getst hi]
      exact ⟨hobj, setst _ hi, hw⟩
  | checkpointAll v bl hf hm r hr =>
    subst hr
    obtain ⟨fs, hfs⟩ := index_blocks (mods := mods) fun b hb => (hmm _).2 ⟨_, hm b hb, rfl⟩
    obtain ⟨e1, e2⟩ := checkpointBlocks_eq env hmn hfs σ
    obtain ⟨e3, e4⟩ := checkpointBlocks_objs env (bl.map WithAttrs.val) σ
    refine ⟨.mcheckpoint fs, .checkpointAll _ _ _ hf hfs, ?_, ?_⟩
    · simp only [Sys.step, hst, e1]
    · simp only [Sys.step, hst]
      exact ⟨by rw [e3]; exact hobj, e2, by rw [e4]; exact hw⟩

theorem gstep_valid {S : List Item} {s : Ident} {info : List Ident → MethodInfo V} {env : Env V} {σ σ' : GState V}
    {op : GOp V} {x : Obs V} (h : GStep S s info env σ op x σ') : x ≠ .invalid := by
  cases h <;> nofun

theorem mstep_valid {S : List ModOut} {env : Env V} {σ σ' : GState V} {op : MOp V} {x : Obs V}
    (h : MStep S env σ op x σ') : x ≠ .invalid := by
  cases h <;> nofun

/-! ## All mocks -/

/-- What one mock is in the runtime. -/
def Plan.view (P : Plan V) (σ : PState V) (i : Nat) : Sys V where
  objs := (σ.objs i).map (Option.map fun μ => (P.stores i).map μ)
  statics := (P.mods i).map (σ.statics i)
  world := σ.world

/-- Different objects have different numbers. -/
def Apart (σ : PState V) (n : Nat) (obj : Nat → Nat → Nat) : Prop :=
  ∀ i o j o', i < n → j < n → o < (σ.objs i).length → o' < (σ.objs j).length → obj i o = obj j o' →
    i = j ∧ o = o'

/-- The state of the generated code of all mocks and that of the runtime. -/
structure PSim (P : Plan V) (n : Nat) (obj stat : Nat → Nat → Nat) (σ : PState V) (y : Sys V) : Prop where
  parts : ∀ i, i < n → Embed (obj i) (stat i) (Plan.view P σ i) y
  apart : Apart σ n obj

/-- What the simulation of one mock has to provide. -/
def Simulates (P : Plan V) (mocks : List Mock) (info : Nat → List Ident → MethodInfo V) (env : Env V) : Prop :=
  ∀ {σ σ' : PState V} {op : POp V} {x : Obs V}, PStep mocks info env σ op x σ' →
    ∃ i op', i < mocks.length ∧ x ≠ .invalid ∧
      (∀ obj stat, PSame mocks P obj stat op (renumber (obj i) (stat i) op')) ∧
      ((Plan.view P σ i).step env op').1 = x ∧
      ((Plan.view P σ i).step env op').2 = Plan.view P σ' i ∧
      ∀ j, j ≠ i → σ'.objs j = σ.objs j ∧ σ'.statics j = σ.statics j

theorem program_step {P : Plan V} {mocks : List Mock} {info : Nat → List Ident → MethodInfo V} {env : Env V}
    (H : Simulates P mocks info env) {stat : Nat → Nat → Nat}
    (hstat : ∀ i j a b, i < mocks.length → j < mocks.length → a < (P.mods i).length → b < (P.mods j).length →
      stat i a = stat j b → i = j ∧ a = b)
    {σ σ' : PState V} {op : POp V} {x : Obs V} {obj : Nat → Nat → Nat} {y : Sys V}
    (hs : PSim P mocks.length obj stat σ y) (h : PStep mocks info env σ op x σ') :
    ∃ op' obj', (∀ i o, o < (σ.objs i).length → obj' i o = obj i o) ∧
      (∀ i, (σ.objs i).length ≤ (σ'.objs i).length) ∧
      (∀ obj'', (∀ i o, o < (σ'.objs i).length → obj'' i o = obj' i o) → PSame mocks P obj'' stat op op') ∧
      (y.step env op').1 = x ∧ PSim P mocks.length obj' stat σ' (y.step env op').2 := by
  obtain ⟨i, op', hi, hv, h1, h2, h3, h4⟩ := H h
  have hlen : ∀ j, (Plan.view P σ j).objs.length = (σ.objs j).length := fun j => List.length_map _
  have hlen' : ∀ j, (Plan.view P σ' j).objs.length = (σ'.objs j).length := fun j => List.length_map _
  have hle : (σ'.objs i).length ≤ (σ.objs i).length + 1 := by
    rw [← hlen', ← hlen, ← h3]; exact step_length _ _ _
  have hge : (σ.objs i).length ≤ (σ'.objs i).length := by
    rw [← hlen', ← hlen, ← h3]; exact step_grows _ _ _
  -- the number of an object that is made
  let obj' : Nat → Nat → Nat := fun j o => if j = i ∧ o = (σ.objs i).length then y.objs.length else obj j o
  have hold : ∀ j o, o < (σ.objs j).length → obj' j o = obj j o := by
    intro j o ho
    refine if_neg ?_
    rintro ⟨rfl, rfl⟩
    omega
  have below : ∀ j o, j < mocks.length → o < (σ.objs j).length → obj j o < y.objs.length := by
    intro j o hj ho
    have hz : o < (Plan.view P σ j).objs.length := by rw [hlen]; exact ho
    exact some_lt ((hs.parts j hj).objs o _ (List.getElem?_eq_getElem hz))
  have emb : Embed (obj' i) (stat i) (Plan.view P σ i) y := by
    obtain ⟨a, b, c⟩ := hs.parts i hi
    refine ⟨fun o x ho => ?_, b, c⟩
    rw [hold i o (by rw [← hlen]; exact some_lt ho)]
    exact a o x ho
  have hf : InjBelow (Plan.view P σ i).objs.length (obj' i) := by
    intro a b ha hb e
    rw [hlen] at ha hb
    rw [hold i a ha, hold i b hb] at e
    exact (hs.apart i a i b hi hi ha hb e).2
  have hg : InjBelow (Plan.view P σ i).statics.length (stat i) := by
    intro a b ha hb e
    simp only [Plan.view, List.length_map] at ha hb
    exact (hstat i i a b hi hi ha hb e).2
  obtain ⟨s1, s2, s3, s4⟩ := embed_step (env := env) (op := op') emb hf hg (by rw [h2]; exact hv)
    (by rw [hlen]; exact if_pos ⟨rfl, rfl⟩)
  have apart : Apart σ' mocks.length obj' := by
    have key : ∀ j o, o < (σ'.objs j).length → o < (σ.objs j).length ∨ (j = i ∧ o = (σ.objs i).length) := by
      intro j o ho
      by_cases e : j = i
      · subst e
        omega
      · rw [(h4 j e).1] at ho
        exact .inl ho
    intro j o j' o' hj hj' ho ho' e
    rcases key j o ho with k | ⟨rfl, rfl⟩ <;> rcases key j' o' ho' with k' | ⟨rfl, rfl⟩
    · rw [hold _ _ k, hold _ _ k'] at e
      exact hs.apart j o j' o' hj hj' k k' e
    · rw [hold _ _ k, show obj' j' (σ.objs j').length = y.objs.length from if_pos ⟨rfl, rfl⟩] at e
      have := below j o hj k
      omega
    · rw [hold _ _ k', show obj' j (σ.objs j).length = y.objs.length from if_pos ⟨rfl, rfl⟩] at e
      have := below j' o' hj' k'
      omega
    · exact ⟨rfl, rfl⟩
  refine ⟨renumber (obj' i) (stat i) op', obj', hold, fun j => ?_, fun obj'' ha => ?_, s1.trans h2, ?_, apart⟩
  · by_cases e : j = i
    · subst e; exact hge
    · rw [(h4 j e).1]; exact Nat.le_refl _
  · rw [← renumber_congr (env := env) (z := Plan.view P σ i) (f := obj'' i) (by rw [h2]; exact hv)
      fun o ho => ha i o (by rw [hlen] at ho; omega)]
    exact h1 obj'' stat
  · intro j hj
    by_cases e : j = i
    · subst e
      rw [← h3]
      exact s2
    · obtain ⟨e1, e2⟩ := h4 j e
      obtain ⟨a, b, -⟩ := hs.parts j hj
      have ew : σ'.world = (y.step env (renumber (obj' i) (stat i) op')).2.world := by
        rw [← s2.world, h3]; rfl
      refine ⟨fun o x ho => ?_, fun q x hq => ?_, ew⟩
      · simp only [Plan.view, e1] at ho
        have hlt : o < (σ.objs j).length := by simpa using some_lt ho
        have hlt' : o < (σ'.objs j).length := by rw [e1]; exact hlt
        have ho' := a o x ho
        rw [← hold j o hlt] at ho'
        rw [s3 _ fun o' ho'' e' => ?_, ho']
        rw [hlen] at ho''
        by_cases k : o' < (σ.objs i).length
        · rw [hold _ _ k, hold _ _ hlt] at e'
          exact e ((hs.apart i o' j o hi hj k hlt e').1.symm)
        · have : o' = (σ.objs i).length := by omega
          subst this
          rw [hold _ _ hlt, show obj' i (σ.objs i).length = y.objs.length from if_pos ⟨rfl, rfl⟩] at e'
          have := below j o hj hlt
          omega
      · simp only [Plan.view, e2] at hq
        have hlt : q < (P.mods j).length := by simpa using some_lt hq
        rw [s4 _ fun q' hq' e' => ?_, b q x hq]
        simp only [Plan.view, List.length_map] at hq'
        exact e (hstat i j q' q hi hj hq' hlt e').1.symm

theorem program_run {P : Plan V} {mocks : List Mock} {info : Nat → List Ident → MethodInfo V} {env : Env V}
    (H : Simulates P mocks info env) {stat : Nat → Nat → Nat}
    (hstat : ∀ i j a b, i < mocks.length → j < mocks.length → a < (P.mods i).length → b < (P.mods j).length →
      stat i a = stat j b → i = j ∧ a = b)
    {σ τ : PState V} {ops : List (POp V)} {xs : List (Obs V)} (h : PRun mocks info env σ ops xs τ) :
    ∀ {obj : Nat → Nat → Nat} {y : Sys V}, PSim P mocks.length obj stat σ y →
    ∃ ops' obj', (∀ i o, o < (σ.objs i).length → obj' i o = obj i o) ∧
      (∀ i, (σ.objs i).length ≤ (τ.objs i).length) ∧
      Pointwise (PSame mocks P obj' stat) ops ops' ∧
      (Sys.run env ops' y).1 = xs ∧ PSim P mocks.length obj' stat τ (Sys.run env ops' y).2 := by
  induction h with
  | nil => exact fun {obj y} hs => ⟨[], obj, fun _ _ _ => rfl, fun _ => Nat.le_refl _, .nil, rfl, hs⟩
  | cons h _ ih =>
    intro obj y hs
    obtain ⟨op', obj', a1, a2, a3, a4, a5⟩ := program_step H hstat hs h
    obtain ⟨ops', obj'', b1, b2, b3, b4, b5⟩ := ih a5
    refine ⟨op' :: ops', obj'', fun i o ho => ?_, fun i => Nat.le_trans (a2 i) (b2 i),
      .cons (a3 obj'' b1) b3, by rw [Sys.run, a4, b4], b5⟩
    rw [b1 i o (Nat.lt_of_lt_of_le ho (a2 i)), a1 i o ho]

/-! ## The plan -/

/-- The layout of one mock. -/
structure Data (V : Type) where
  stores : List (List Ident)
  infos : List (MethodInfo V)
  mods : List (List Ident)

/-- What is known of the layout of one mock. -/
def Data.Fits (d : Data V) (info : List Ident → MethodInfo V) (env : Env V) : Mock → Prop
  | .struct items s => (d.stores.Nodup ∧ (∀ p, p ∈ d.stores ↔ ∃ module, IsStore items s p module) ∧
      Pointwise (fun p mi => ∃ module g, StoreAt items s p module g ∧ mi = infoAt info module g)
        d.stores d.infos) ∧
    d.mods.Nodup ∧ (∀ q, q ∈ d.mods ↔ HasModule items q) ∧
    ∀ {σ σ' : GState V} {y : Sys V} {op : GOp V} {x : Obs V}, Sim d.stores d.mods σ y →
      GStep items s info env σ op x σ' → ∃ op', Same items s d.stores d.infos d.mods op op' ∧
        (y.step env op').1 = x ∧ Sim d.stores d.mods σ' (y.step env op').2
  | .module items => d.mods.Nodup ∧ (∀ q, q ∈ d.mods ↔ ∃ n ∈ modules items, q = [n]) ∧
    ∀ {σ σ' : GState V} {y : Sys V} {op : MOp V} {x : Obs V}, Sim d.stores d.mods σ y →
      MStep items env σ op x σ' → ∃ op', MSame items d.mods op op' ∧
        (y.step env op').1 = x ∧ Sim d.stores d.mods σ' (y.step env op').2

theorem data_exists {mk : Mock} (h : mk.Valid) (info : List Ident → MethodInfo V) (env : Env V) :
    ∃ d : Data V, d.Fits info env mk := by
  cases h with
  | struct hash m items c h hs hacc =>
    obtain ⟨l, k1, k2, k3, k4⟩ := C52_checkpoint hash m items h c hs hacc
    obtain ⟨mi, e1, ⟨L⟩⟩ := expand_steps h
    have hone : OneCheckpoint (c.strip items) := by
      refine one_checkpoint L ?_ hacc
      simp only [mockItemStruct, gen_bind_ok, gen_pure_ok] at e1
      obtain ⟨_, -, _, -, rfl⟩ := e1
      exact active_format_of c _ _ hs
    obtain ⟨mods, m1, m2⟩ := modules_list (c.strip items)
    obtain ⟨ms, hms⟩ := slots_list (S := c.strip items) (s := m.name) info l fun p hp => (k4 p).1 hp
    obtain ⟨hlen, hat⟩ := pointwise_at hms
    refine ⟨⟨l, ms, mods⟩, ⟨k3, k4, hms⟩, m1, m2, fun {σ σ' y op x} hsim hst => ?_⟩
    exact sim_step hacc hone k1 k2 k3 k4 m1 m2
      (fun i p md g hi hp => by
        obtain ⟨b, hb, md', g', hp', rfl⟩ := hat i p hi
        obtain ⟨rfl, rfl⟩ := storeAt_unique hacc hp hp'
        exact hb) hlen.symm hsim hst
  | module m o c h hacc =>
    have hn : ((modules (c.stripMod o.items)).map fun n => [n]).Nodup :=
      List.Pairwise.map _ (fun a b hab e => hab (by cases e; rfl)) hacc
    have hm : ∀ q, q ∈ ((modules (c.stripMod o.items)).map fun n => [n]) ↔
        ∃ n ∈ modules (c.stripMod o.items), q = [n] := by
      intro q
      rw [List.mem_map]
      exact ⟨fun ⟨n, h, e⟩ => ⟨n, h, e.symm⟩, fun ⟨n, h, e⟩ => ⟨n, h, e.symm⟩⟩
    exact ⟨⟨[], [], (modules (c.stripMod o.items)).map fun n => [n]⟩, hn, hm,
      fun hsim hst => sim_module hn hm hsim hst⟩

theorem view_sim (P : Plan V) (σ : PState V) (i : Nat) :
    Sim (P.stores i) (P.mods i) (σ.part i) (Plan.view P σ i) := ⟨rfl, rfl, rfl⟩

theorem view_of_sim {P : Plan V} {σ : PState V} {i : Nat} {τ : GState V} {z : Sys V}
    (h : Sim (P.stores i) (P.mods i) τ z) : z = Plan.view P (σ.put i τ) i := by
  obtain ⟨a, b, c⟩ := h
  obtain ⟨zo, zs, zw⟩ := z
  simp only at a b c
  subst a b c
  simp [Plan.view, PState.put]

theorem getElem?_mem_lt {mocks : List Mock} {i : Nat} {mk : Mock} (h : mocks[i]? = some mk) :
    i < mocks.length := some_lt h

/-- The layout of all mocks. -/
theorem plan_exists (mocks : List Mock) (hv : ∀ mk ∈ mocks, mk.Valid) (info : Nat → List Ident → MethodInfo V)
    (env : Env V) : ∃ (P : Plan V) (stat : Nat → Nat → Nat), P.Lists mocks info stat ∧
      Simulates P mocks info env := by
  classical
  have hd : ∀ i, ∃ d : Data V, d.mods.Nodup ∧ ∀ mk, mocks[i]? = some mk → d.Fits (info i) env mk := by
    intro i
    cases hm : mocks[i]? with
    | none => exact ⟨⟨[], [], []⟩, List.nodup_nil, nofun⟩
    | some mk =>
      obtain ⟨d, hd⟩ := data_exists (hv mk (List.mem_of_getElem? hm)) (info i) env
      refine ⟨d, ?_, fun mk' h => by cases h; exact hd⟩
      cases mk with
      | struct items s => exact hd.2.1
      | module items => exact hd.1
  let D := fun i => (hd i).choose
  have hD := fun i => (hd i).choose_spec
  change ∀ i, (D i).mods.Nodup ∧ ∀ mk, mocks[i]? = some mk → (D i).Fits (info i) env mk at hD
  let L : List (Nat × List Ident) := (List.range mocks.length).flatMap fun i => (D i).mods.map fun q => (i, q)
  have memL : ∀ x, x ∈ L ↔ x.1 < mocks.length ∧ x.2 ∈ (D x.1).mods := by
    intro x
    simp only [L, List.mem_flatMap, List.mem_range, List.mem_map]
    constructor
    · rintro ⟨i, hi, q, hq, rfl⟩
      exact ⟨hi, hq⟩
    · rintro ⟨h1, h2⟩
      exact ⟨x.1, h1, x.2, h2, rfl⟩
  obtain ⟨L', hL1, hL2⟩ := exists_nodup L
  have atL : ∀ x, x ∈ L' → ∃ k : Nat, L'[k]? = some x := fun x h => index h
  refine ⟨⟨fun i => (D i).stores, fun i => (D i).infos, fun i => (D i).mods, L'⟩,
    fun i j => if k : ∃ a : Nat, ∃ q, (D i).mods[j]? = some q ∧ L'[a]? = some (i, q) then k.choose else 0,
    ⟨fun i items s h => ?_, fun i => (hD i).1, fun i items s h => ?_, fun i items h => ?_,
      ⟨hL1, fun x => by rw [hL2, memL]⟩, fun i j q hi hq => ?_⟩, ?_⟩
  · exact ((hD i).2 _ h).1
  · exact ((hD i).2 _ h).2.2.1
  · exact ((hD i).2 _ h).2.1
  · have k : ∃ a : Nat, ∃ q, (D i).mods[j]? = some q ∧ L'[a]? = some (i, q) := by
      obtain ⟨a, ha⟩ := atL (i, q) ((hL2 _).2 ((memL _).2 ⟨hi, List.mem_of_getElem? hq⟩))
      exact ⟨a, q, hq, ha⟩
    simp only [dif_pos k]
    obtain ⟨q', e1, e2⟩ := k.choose_spec
    rw [hq] at e1
    cases e1
    exact e2
  · intro σ σ' op x h
    cases h with
    | struct i items s op x τ hu h =>
      obtain ⟨op', a1, a2, a3⟩ := ((hD i).2 _ hu).2.2.2 (y := Plan.view ⟨_, fun i => (D i).infos, _, L'⟩ σ i)
        (view_sim ⟨fun i => (D i).stores, fun i => (D i).infos, fun i => (D i).mods, L'⟩ σ i) h
      exact ⟨i, op', some_lt hu, gstep_valid h, fun obj stat => .struct _ _ _ _ _ hu a1, a2, view_of_sim a3,
        fun j hj => ⟨if_neg hj, if_neg hj⟩⟩
    | module i items op x τ hu h =>
      obtain ⟨op', a1, a2, a3⟩ := ((hD i).2 _ hu).2.2 (y := Plan.view ⟨_, fun i => (D i).infos, _, L'⟩ σ i)
        (view_sim ⟨fun i => (D i).stores, fun i => (D i).infos, fun i => (D i).mods, L'⟩ σ i) h
      exact ⟨i, op', some_lt hu, mstep_valid h, fun obj stat => .module _ _ _ _ hu a1, a2, view_of_sim a3,
        fun j hj => ⟨if_neg hj, if_neg hj⟩⟩

theorem stat_inj {P : Plan V} {mocks : List Mock} {info : Nat → List Ident → MethodInfo V}
    {stat : Nat → Nat → Nat} (h : P.Lists mocks info stat) (i j a b : Nat) (hi : i < mocks.length)
    (hj : j < mocks.length) (ha : a < (P.mods i).length) (hb : b < (P.mods j).length)
    (e : stat i a = stat j b) : i = j ∧ a = b := by
  have h1 := h.stat i a _ hi (List.getElem?_eq_getElem ha)
  have h2 := h.stat j b _ hj (List.getElem?_eq_getElem hb)
  rw [e, h2, Option.some.injEq, Prod.mk.injEq] at h1
  obtain ⟨rfl, h1⟩ := h1
  exact ⟨rfl, ((List.getElem_inj (h.mods j)).1 h1).symm⟩

/-- C83.  A program that uses any number of mocks, structs and modules, and any sequences with all of them, sees
what the same program sees on the objects and static methods of the runtime: there are as many as the mocks
have, none is shared by two, and only their numbers are different. -/
theorem C83_behaves (mocks : List Mock) (hv : ∀ mk ∈ mocks, mk.Valid)
    (info : Nat → List Ident → MethodInfo V) (env : Env V) :
    ∃ (P : Plan V) (stat : Nat → Nat → Nat), P.Lists mocks info stat ∧
      ∀ ops xs σ, PRun mocks info env (.init info) ops xs σ →
        ∃ obj ops', Apart σ mocks.length obj ∧ Pointwise (PSame mocks P obj stat) ops ops' ∧
          (Sys.run env ops' (.init (P.statics.map fun x => info x.1 x.2))).1 = xs := by
  obtain ⟨P, stat, hP, H⟩ := plan_exists mocks hv info env
  refine ⟨P, stat, hP, fun ops xs σ hr => ?_⟩
  have h0 : PSim P mocks.length (fun _ _ => 0) stat (.init info)
      (.init (P.statics.map fun x => info x.1 x.2)) := by
    refine ⟨fun i hi => ⟨nofun, fun j a hj => ?_, rfl⟩, ?_⟩
    · simp only [Plan.view, PState.init, List.getElem?_map, Option.map_eq_some_iff] at hj
      obtain ⟨q, hq, rfl⟩ := hj
      simp [Sys.init, hP.stat i j q hi hq]
    · intro i o j o' _ _ ho
      simp [PState.init] at ho
  obtain ⟨ops', obj, -, -, b3, b4, b5⟩ := program_run H (stat_inj hP) hr h0
  exact ⟨obj, ops', b5.apart, b3, b4⟩

/-! ## Nothing is missing -/

theorem mem_mockCalls {S : List ModOut} {n md : Ident} :
    HasCall S n md ↔ ∃ f, (f, md) ∈ mockCalls S ∧ f.sig.ident = n := by
  simp only [HasCall, mockCalls, List.mem_filterMap]
  constructor
  · rintro ⟨a, nm, v, q, s, h, e⟩
    exact ⟨⟨v, q, s⟩, ⟨_, h, rfl⟩, e⟩
  · rintro ⟨f, ⟨x, hx, h⟩, e⟩
    cases x <;> simp only [reduceCtorEq, Option.some.injEq, Prod.mk.injEq] at h
    obtain ⟨rfl, rfl⟩ := h
    exact ⟨_, _, _, _, _, hx, e⟩

theorem mem_contexts {S : List ModOut} {n md : Ident} :
    HasContext S n md ↔ ∃ v, (n, v, md) ∈ contexts S := by
  simp only [HasContext, contexts, List.mem_filterMap]
  constructor
  · rintro ⟨a, v, h⟩
    exact ⟨v, _, h, rfl⟩
  · rintro ⟨v, x, hx, h⟩
    cases x <;> simp only [reduceCtorEq, Option.some.injEq, Prod.mk.injEq] at h
    obtain ⟨rfl, rfl, rfl⟩ := h
    exact ⟨_, _, hx⟩

theorem mem_checkpoints {S : List ModOut} {n : Ident} {v : Vis} {l : List Ident} :
    (n, v, l) ∈ checkpointFns S ↔ ∃ k, .checkpoint v n k ∈ S ∧ k.map WithAttrs.val = l := by
  simp only [checkpointFns, List.mem_filterMap]
  constructor
  · rintro ⟨x, hx, h⟩
    cases x <;> simp only [reduceCtorEq, Option.some.injEq, Prod.mk.injEq] at h
    obtain ⟨rfl, rfl, rfl⟩ := h
    exact ⟨_, hx, rfl⟩
  · rintro ⟨k, hk, rfl⟩
    exact ⟨_, hk, rfl⟩

theorem pointwise_img {α β : Type} {R : α → β → Prop} {l : List α} {m : List β} (h : Pointwise R l m) :
    ∀ a ∈ l, ∃ b ∈ m, R a b := by
  induction h with
  | nil => nofun
  | cons hr _ ih =>
    intro a ha
    rcases List.mem_cons.1 ha with rfl | ha
    · exact ⟨_, List.mem_cons_self, hr⟩
    · obtain ⟨b, hb, hr⟩ := ih a ha
      exact ⟨b, List.mem_cons_of_mem _ hb, hr⟩

/-- C83: each function that is compiled in a module can be called in its mock, and its context used, at any time
and with any arguments.  The call and the context have the same expectations, and no other function nor context
has them. -/
theorem C83_module (m : ItemMod) (o : OutMod) (h : expandModule m = .ok o) (l : List ModItem)
    (hl : m.content = some l) (hv : ValidModule l) (c : Config) (hp : ∀ f, Writes l f → c.Plain f.attrs)
    (hb : c.Blocks l) (hn : ((c.functions l).map (·.sig.ident)).Nodup) (f : Callable) (hf : f ∈ c.functions l)
    (env : Env V) (σ : GState V) :
    let S := c.stripMod o.items
    let n := f.sig.ident
    (∃ md, (∀ n' md', HasCall S n' md' → (n' = n ↔ md' = md)) ∧
      ∀ n' md', HasContext S n' md' → (n' = n ++ "_context" ↔ md' = md)) ∧
    (∀ k tid args, ∃ x σ', MStep S env σ (.call n k tid args) x σ') ∧
    (∀ k bs, ∃ x σ', MStep S env σ (.expect (n ++ "_context") k bs) x σ') ∧
    (∃ x σ', MStep S env σ (.checkpoint (n ++ "_context")) x σ') ∧
    ∀ b, ∃ x σ', MStep S env σ (.drop (n ++ "_context") b) x σ' := by
  intro S n
  obtain ⟨-, -, h1, h2, h3, -, -, -, h4⟩ := C62_module_partial m o h l hl hv c hp hb
  have hmn := h4 hn
  rw [h3] at hmn
  have hcn : ((mockCalls S).map fun x => x.1.sig.ident).Nodup := by
    have := pointwise_map (R := Replaces) (f := fun a => a.sig.ident) (g := fun a => a.sig.ident)
      (fun a b h => h.name) h1
    rw [List.map_map] at this
    exact (show (mockCalls S).map (fun x => x.1.sig.ident) = _ from this) ▸ hn
  obtain ⟨g, hg, hr⟩ := pointwise_img h1 f hf
  obtain ⟨⟨g', md⟩, hm, rfl⟩ := List.mem_map.1 hg
  have hcall : HasCall S n md := mem_mockCalls.2 ⟨g', hm, hr.name⟩
  have hctx : HasContext S (n ++ "_context") md := by
    refine mem_contexts.2 ⟨g'.vis, ?_⟩
    show _ ∈ contexts (c.stripMod o.items)
    rw [h2]
    refine List.mem_map.2 ⟨_, hm, ?_⟩
    simp only [show g'.sig.ident = n from hr.name]
  have hmod : md ∈ modules S := by
    show _ ∈ modules (c.stripMod o.items)
    rw [h3]
    exact List.mem_map.2 ⟨_, hm, rfl⟩
  have uniq : ∀ x ∈ mockCalls S, (x.1.sig.ident = n ↔ x.2 = md) := by
    intro x hx
    constructor
    · intro e
      have := nodup_map_eq hcn hx hm (e.trans (show n = g'.sig.ident from hr.name.symm))
      rw [this]
    · intro e
      have := nodup_map_eq hmn hx hm e
      rw [this]
      exact hr.name
  refine ⟨⟨md, fun n' md' k => ?_, fun n' md' k => ?_⟩,
    fun k tid args => ⟨_, _, .call σ _ k tid args md hcall hmod _ rfl⟩,
    fun k bs => ⟨_, _, .expect σ _ k bs md hctx hmod _ rfl⟩,
    ⟨_, _, .checkpoint σ _ md hctx hmod _ rfl⟩, fun b => ⟨_, _, .drop σ _ b md hctx hmod _ rfl⟩⟩
  · obtain ⟨f', k1, rfl⟩ := mem_mockCalls.1 k
    exact uniq _ k1
  · obtain ⟨v, k⟩ := mem_contexts.1 k
    change _ ∈ contexts (c.stripMod o.items) at k
    rw [h2] at k
    obtain ⟨⟨f', md''⟩, k1, k2⟩ := List.mem_map.1 k
    cases k2
    rw [← uniq _ k1]
    exact ⟨string_append_left, fun e => by rw [e]⟩

/-- C83: the function `checkpoint` of a mock module can be called at any time; it verifies the expectations of
all functions, those that are declared first first. -/
theorem C83_checkpoint (m : ItemMod) (o : OutMod) (h : expandModule m = .ok o) (l : List ModItem)
    (hl : m.content = some l) (hv : ValidModule l) (c : Config) (hp : ∀ f, Writes l f → c.Plain f.attrs)
    (hb : c.Blocks l) :
    let S := c.stripMod o.items
    ∃ mds, Pointwise (fun f md => HasCall S f.sig.ident md) (c.functions l) mds ∧
      ∀ (env : Env V) σ x σ', MStep S env σ .checkpointAll x σ' ↔
        x = .unit (checkpointBlocks env mds σ).1.1 (checkpointBlocks env mds σ).1.2 ∧
        σ' = (checkpointBlocks env mds σ).2 := by
  intro S
  obtain ⟨-, -, h1, h2, h3, h5, -, -, -⟩ := C62_module_partial m o h l hl hv c hp hb
  refine ⟨modules S, ?_, fun env σ x σ' => ⟨?_, ?_⟩⟩
  · show Pointwise _ _ (modules (c.stripMod o.items))
    rw [h3]
    have key : ∀ (fs : List Callable) (k : List (Callable × Ident)), (∀ x ∈ k, x ∈ mockCalls S) →
        Pointwise Replaces fs (k.map Prod.fst) →
        Pointwise (fun f md => HasCall S f.sig.ident md) fs (k.map Prod.snd) := by
      intro fs k
      induction k generalizing fs with
      | nil => intro _ hp; cases hp; exact .nil
      | cons a k ih =>
        intro hk hp
        cases hp with
        | cons hr hp =>
          exact .cons (mem_mockCalls.2 ⟨a.1, hk a List.mem_cons_self, hr.name⟩)
            (ih _ (fun x hx => hk x (List.mem_cons_of_mem _ hx)) hp)
    exact key _ _ (fun _ h => h) h1
  · intro hst
    cases hst with
    | checkpointAll v k hf hm r hr =>
      have := mem_checkpoints.2 ⟨k, hf, rfl⟩
      change _ ∈ checkpointFns (c.stripMod o.items) at this
      rw [h5, List.mem_singleton, Prod.mk.injEq, Prod.mk.injEq] at this
      subst hr
      rw [show modules S = k.map WithAttrs.val from this.2.2.symm]
      exact ⟨rfl, rfl⟩
  · rintro ⟨rfl, rfl⟩
    have hmem : ("checkpoint", Vis.pub, modules S) ∈ checkpointFns S := by
      show _ ∈ checkpointFns (c.stripMod o.items)
      rw [h5]
      exact List.mem_singleton.2 rfl
    obtain ⟨k, hk, e⟩ := mem_checkpoints.1 hmem
    have := MStep.checkpointAll (items := S) (env := env) σ .pub k hk (fun b hb => by
      rw [← e]
      exact List.mem_map.2 ⟨b, hb, rfl⟩) _ rfl
    rw [e] at this
    exact this

/-- Everything is compiled. -/
def everywhere : Config := ⟨fun _ => true, by simp⟩

/-- A program with two mocks of the struct of C52 and one of the module of C62. -/
example (info : Nat → List Ident → MethodInfo V) (env : Env V) (k : Key) (bs : List (Build V)) (a : V) :
    ∃ mocks, (∀ mk ∈ mocks, Mock.Valid mk) ∧ ∃ xs σ, PRun mocks info env (.init info)
      [.struct 0 .new, .struct 1 .new, .module 2 (.expect "g_context" k bs), .struct 1 (.expect 0 "expect_foo" k bs),
        .module 2 (.call "g" k 0 []), .struct 1 (.call 0 none "foo" k 0 [a] id),
        .module 2 .checkpointAll, .struct 0 (.drop 0 false)] xs σ := by
  have h : (expandStruct (fun _ => 0) exStruct).toOption.map (fun l => accepts (unix.strip l)) =
    some true := by decide +kernel
  have hm : (expandModule exModule).toOption.map (fun o => decide (modules (everywhere.stripMod o.items)).Nodup) =
    some true := by decide +kernel
  cases he : expandStruct (fun _ => 0) exStruct with
  | error e => rw [he] at h; cases h
  | ok items =>
  cases ho : expandModule exModule with
  | error e => rw [ho] at hm; cases hm
  | ok o =>
    rw [he] at h
    rw [ho] at hm
    simp only [Except.toOption, Option.map_some, Option.some.injEq] at h
    simp only [Except.toOption, Option.map_some, Option.some.injEq, decide_eq_true_eq] at hm
    have hacc := accepted_of h
    have hs : ∀ a ∈ exStruct.attrs, unix.lets a = true := nofun
    have v1 : Mock.Valid (.struct (unix.strip items) "MockFoo") := .struct _ exStruct items unix he hs hacc
    have v2 : Mock.Valid (.module (everywhere.stripMod o.items)) := .module exModule o everywhere ho hm
    have obj := fun i σ => C72_object _ exStruct items he unix hs hacc (info i) env σ
    have meth := fun i => C72_instance _ exStruct items he unix hs
      { sig := { ident := "foo", inputs := [selfArg] } } List.mem_cons_self (by simp [IsMethod, selfArg]) nofun
      (info i) env
    have hpl : ∀ f, Writes (exModule.content.getD []) f → everywhere.Plain f.attrs :=
      fun f _ a _ k => by simp [everywhere] at k
    have hbl : everywhere.Blocks (exModule.content.getD []) := by
      intro a abi its _
      simp [Config.active, everywhere]
    have md := fun σ => C83_module (V := V) exModule o ho _ rfl exModule_valid everywhere hpl hbl (by decide +kernel)
      ⟨.inherited, {}, { ident := "g" }⟩ (by simp [exModule, Config.functions, Config.active, everywhere]) env σ
    obtain ⟨mds, -, mc⟩ := C83_checkpoint (V := V) exModule o ho _ rfl exModule_valid everywhere hpl hbl
    let mocks : List Mock := [.struct (unix.strip items) "MockFoo", .struct (unix.strip items) "MockFoo",
      .module (everywhere.stripMod o.items)]
    have same : ∀ (σ : PState V) i τ, (σ.put i τ).objs i = τ.objs := fun σ i τ => if_pos rfl
    have other : ∀ (σ : PState V) i j τ, j ≠ i → (σ.put i τ).objs j = σ.objs j := fun σ i j τ e => if_neg e
    refine ⟨mocks, by simp [mocks, v1, v2], ?_⟩
    obtain ⟨x1, τ1, h1⟩ := (obj 0 ((PState.init info).part 0)).1
    have a1 : ∃ μ, τ1.objs[0]? = some (some μ) := by
      cases h1 with
      | new μ => exact ⟨μ, rfl⟩
    obtain ⟨μ1, a1⟩ := a1
    have p1 := PStep.struct (mocks := mocks) (PState.init info) 0 _ _ _ _ _ rfl h1
    generalize hσ1 : (PState.init info).put 0 τ1 = σ1 at p1
    have b1 : σ1.objs 0 = τ1.objs := by rw [← hσ1, same]
    have b1' : σ1.objs 1 = [] := by rw [← hσ1, other _ _ _ _ (by decide)]; rfl
    obtain ⟨x2, τ2, h2⟩ := (obj 1 (σ1.part 1)).1
    have a2 : ∃ μ, τ2.objs[0]? = some (some μ) := by
      cases h2 with
      | new μ => exact ⟨μ, by simp [PState.part, b1']⟩
    obtain ⟨μ2, a2⟩ := a2
    have p2 := PStep.struct (mocks := mocks) σ1 1 _ _ _ _ _ rfl h2
    generalize hσ2 : σ1.put 1 τ2 = σ2 at p2
    have b2 : σ2.objs 0 = τ1.objs := by rw [← hσ2, other _ _ _ _ (by decide), b1]
    have b2' : σ2.objs 1 = τ2.objs := by rw [← hσ2, same]
    obtain ⟨x3, τ3, h3⟩ := (md (σ2.part 2)).2.2.1 k bs
    have p3 := PStep.module (mocks := mocks) (info := info) σ2 2 _ _ _ _ rfl h3
    generalize hσ3 : σ2.put 2 τ3 = σ3 at p3
    have b3 : σ3.objs 0 = τ1.objs := by rw [← hσ3, other _ _ _ _ (by decide), b2]
    have b3' : σ3.objs 1 = τ2.objs := by rw [← hσ3, other _ _ _ _ (by decide), b2']
    obtain ⟨x4, τ4, h4⟩ := (meth 1 (σ3.part 1) 0 μ2 (by simp [PState.part, b3', a2])).1 k bs
    obtain ⟨μ4, a4⟩ := step_alive (μ := μ2) (o := 0) h4 nofun (by simp [PState.part, b3', a2])
    have p4 := PStep.struct (mocks := mocks) σ3 1 _ _ _ _ _ rfl h4
    generalize hσ4 : σ3.put 1 τ4 = σ4 at p4
    have b4 : σ4.objs 0 = τ1.objs := by rw [← hσ4, other _ _ _ _ (by decide), b3]
    have b4' : σ4.objs 1 = τ4.objs := by rw [← hσ4, same]
    obtain ⟨x5, τ5, h5⟩ := (md (σ4.part 2)).2.1 k 0 []
    have p5 := PStep.module (mocks := mocks) (info := info) σ4 2 _ _ _ _ rfl h5
    generalize hσ5 : σ4.put 2 τ5 = σ5 at p5
    have b5 : σ5.objs 0 = τ1.objs := by rw [← hσ5, other _ _ _ _ (by decide), b4]
    have b5' : σ5.objs 1 = τ4.objs := by rw [← hσ5, other _ _ _ _ (by decide), b4']
    obtain ⟨x6, τ6, h6⟩ := (meth 1 (σ5.part 1) 0 μ4 (by simp only [PState.part, b5', a4])).2 k 0 [a] id
    have p6 := PStep.struct (mocks := mocks) σ5 1 _ _ _ _ _ rfl h6
    generalize hσ6 : σ5.put 1 τ6 = σ6 at p6
    have b6 : σ6.objs 0 = τ1.objs := by rw [← hσ6, other _ _ _ _ (by decide), b5]
    have h7 := (mc env (σ6.part 2) _ _).2 ⟨rfl, rfl⟩
    have p7 := PStep.module (mocks := mocks) (info := info) σ6 2 _ _ _ _ rfl h7
    generalize hσ7 : σ6.put 2 (checkpointBlocks env mds (σ6.part 2)).2 = σ7 at p7
    have b7 : σ7.objs 0 = τ1.objs := by rw [← hσ7, other _ _ _ _ (by decide), b6]
    obtain ⟨x8, τ8, h8⟩ := ((obj 0 (σ7.part 0)).2 0 μ1 (by simp only [PState.part, b7, a1])).2 false
    have p8 := PStep.struct (mocks := mocks) σ7 0 _ _ _ _ _ rfl h8
    exact ⟨_, _, .cons p1 (.cons p2 (.cons p3 (.cons p4 (.cons p5 (.cons p6 (.cons p7 (.cons p8 (.nil _))))))))⟩

end Mockall.Props
