import Verif.Spec.MessageNames
import Verif.Props.DeriveExec
import Verif.Props.Messages

/-! # C82: messages name the mock and the method -/

namespace Mockall.Props

open Derive Spec

variable {V : Type}

/-! ## Which method the code belongs to -/

/-- The texts of the method `n` of the struct `s`. -/
def Names (s n : Ident) (md : List Ident) (texts : List Texts) : Prop :=
  ∃ e ∈ texts, e.module = md ∧ e.func = s ++ "::" ++ n ∧ e.desc = s ++ "::" ++ n

theorem names_own {mi : MockItemStruct} {x : Meth} (hx : x ∈ mi.methods) :
    Names mi.name x.name [mi.modname, x.innerMod] mi.texts :=
  ⟨_, List.mem_append.2 (.inl (List.mem_map.2 ⟨x, hx, rfl⟩)), rfl, rfl, rfl⟩

theorem names_trait {mi : MockItemStruct} {t : MockTrait} (ht : t ∈ mi.traits) {x : Meth} (hx : x ∈ t.methods) :
    Names mi.name x.name [mi.modname ++ "_" ++ t.ssName, x.innerMod] mi.texts :=
  ⟨_, List.mem_append.2 (.inr (List.mem_flatMap.2 ⟨t, ht, List.mem_map.2 ⟨x, hx, rfl⟩⟩)), rfl, rfl, rfl⟩

theorem storeAt_origin {mi : MockItemStruct} {items : List Item} (L : Layout mi items) {c : Config}
    (hs : c.active (mainAttrs mi) = true) (hacc : Accepted (c.strip items)) {p md : List Ident} {g : Bool}
    (h : StoreAt (c.strip items) mi.name p md g) : ∃ n, p.getLast? = some n ∧ Names mi.name n md mi.texts := by
  have hmain := struct_strip (c := c) L.struct hs
  have field : ∀ {f t}, HasField (c.strip items) mi.name f t →
      ∃ x ∈ mainFields mi L.phantoms, c.active x.attrs = true ∧ x.name = f ∧ x.ty = t := by
    rintro f t ⟨a, fs, fa, k, hf⟩
    cases struct_unique hacc hmain k
    obtain ⟨hm, ha⟩ := List.mem_filter.1 hf
    exact ⟨_, hm, ha, rfl, rfl⟩
  cases h with
  | here _ f _ _ hf =>
    obtain ⟨x, hx, -, rfl, ht⟩ := field hf
    simp only [mainFields, fieldDefinitions, List.mem_append, List.mem_map] at hx
    rcases hx with (⟨s, hss, rfl⟩ | ⟨y, hy, rfl⟩) | hx
    · cases ht
    · cases ht
      exact ⟨_, rfl, names_own (List.mem_filter.1 hy).1⟩
    · rw [(phantoms_are L.phantom _ hx).2.choose_spec] at ht
      cases ht
  | sub _ f s' q _ _ hf hq =>
    obtain ⟨x, hx, ha, rfl, ht⟩ := field hf
    simp only [mainFields, fieldDefinitions, List.mem_append, List.mem_map] at hx
    rcases hx with (⟨s, hss, rfl⟩ | ⟨y, hy, rfl⟩) | hx
    · cases ht
      have hss := (List.mem_filter.1 hss).1
      have hsub := struct_strip (c := c) (L.subs s hss).struct ha
      obtain ⟨t, ht, rfl⟩ := List.mem_map.1 hss
      have ht := uniqueTraits_sub ht
      have field' : ∀ {f ty}, HasField (c.strip items) (mi.name ++ "_" ++ t.ssName) f ty → ∃ x ∈ fieldDefinitions
          t.methods (mi.modname ++ "_" ++ t.ssName) ++ L.phantoms, x.name = f ∧ x.ty = ty := by
        rintro f ty ⟨a, fs, fa, k, hf⟩
        cases struct_unique hacc hsub k
        exact ⟨_, (List.mem_filter.1 hf).1, rfl, rfl⟩
      have hq' : ∃ f, q = [f] ∧ HasField (c.strip items) (mi.name ++ "_" ++ t.ssName) f (.store md g) := by
        cases hq with
        | here _ f _ _ hf => exact ⟨f, rfl, hf⟩
        | sub _ f s' q _ _ hf hq =>
          exfalso
          obtain ⟨x, hx, rfl, e⟩ := field' hf
          simp only [fieldDefinitions, List.mem_append, List.mem_map] at hx
          rcases hx with ⟨y, hy, rfl⟩ | hx
          · cases e
          · rw [(phantoms_are L.phantom _ hx).2.choose_spec] at e
            cases e
      obtain ⟨f, rfl, hf⟩ := hq'
      obtain ⟨x, hx, rfl, e⟩ := field' hf
      simp only [fieldDefinitions, List.mem_append, List.mem_map] at hx
      rcases hx with ⟨y, hy, rfl⟩ | hx
      · cases e
        exact ⟨_, rfl, names_trait ht (List.mem_filter.1 hy).1⟩
      · rw [(phantoms_are L.phantom _ hx).2.choose_spec] at e
        cases e
    · cases ht
    · rw [(phantoms_are L.phantom _ hx).2.choose_spec] at ht
      cases ht

theorem static_origin {mi : MockItemStruct} {items : List Item} (L : Layout mi items) {c : Config} {s : Ident}
    {t : Option TraitPath} {n : Ident} {md : List Ident} (h : HasFn (c.strip items) s t n (.callStatic md)) :
    Names mi.name n md mi.texts := by
  obtain ⟨a, fs, hi, ha, f, hf, -, rfl, hb⟩ := hasFn_origin h
  have call : ∀ {m : Meth} {modname : Ident}, c.body (m.call modname).body = .callStatic md →
      md = [modname, m.innerMod] := by
    intro m md h
    unfold Meth.call at h
    dsimp only at h
    split at h
    · cases h; rfl
    · cases h
  rcases L.impls _ _ _ _ hi with ⟨-, -, rfl, rfl⟩ | ⟨-, s', -, -, rfl⟩ | ⟨u, hu, hx⟩
  · simp only [mainFns, List.mem_append, List.mem_map, List.mem_singleton, MockItemStruct.newMethod] at hf
    rcases hf with (((⟨m, hm, rfl⟩ | ⟨m, hm, rfl⟩) | ⟨m, hm, rfl⟩) | rfl) | hf
    · rw [call hb]; exact names_own hm
    · cases hb
    · cases hb
    · cases hb
    · split at hf
      · cases hf
      · cases List.mem_singleton.1 hf; cases hb
  · cases List.mem_singleton.1 hf; cases hb
  · simp only [MockTrait.implItems, List.mem_cons, Item.impl.injEq, List.not_mem_nil, or_false] at hx
    rcases hx with ⟨rfl, -, rfl, rfl⟩ | ⟨rfl, -, rfl, rfl⟩
    · obtain ⟨m, hm, rfl⟩ := List.mem_map.1 hf
      rw [call hb]; exact names_trait hu hm
    · rcases List.mem_append.1 hf with hf | hf <;> obtain ⟨m, -, rfl⟩ := List.mem_map.1 hf <;> cases hb

theorem context_origin {mi : MockItemStruct} {items : List Item} (L : Layout mi items) {c : Config} {s : Ident}
    {t : Option TraitPath} {n : Ident} {md : List Ident} (h : HasFn (c.strip items) s t n (.context md)) :
    ∃ x, n = x ++ "_context" ∧ Names mi.name x md mi.texts := by
  obtain ⟨a, fs, hi, ha, f, hf, -, rfl, hb⟩ := hasFn_origin h
  have call : ∀ {m : Meth} {modname : Ident}, c.body (m.call modname).body ≠ .context md := by
    intro m md h
    unfold Meth.call at h
    dsimp only at h
    split at h <;> cases h
  rcases L.impls _ _ _ _ hi with ⟨-, -, rfl, rfl⟩ | ⟨-, s', -, -, rfl⟩ | ⟨u, hu, hx⟩
  · simp only [mainFns, List.mem_append, List.mem_map, List.mem_singleton, MockItemStruct.newMethod] at hf
    rcases hf with (((⟨m, hm, rfl⟩ | ⟨m, hm, rfl⟩) | ⟨m, hm, rfl⟩) | rfl) | hf
    · exact (call hb).elim
    · cases hb; exact ⟨_, rfl, names_own (List.mem_filter.1 hm).1⟩
    · cases hb
    · cases hb
    · split at hf
      · cases hf
      · cases List.mem_singleton.1 hf; cases hb
  · cases List.mem_singleton.1 hf; cases hb
  · simp only [MockTrait.implItems, List.mem_cons, Item.impl.injEq, List.not_mem_nil, or_false] at hx
    rcases hx with ⟨rfl, -, rfl, rfl⟩ | ⟨rfl, -, rfl, rfl⟩
    · obtain ⟨m, hm, rfl⟩ := List.mem_map.1 hf
      exact (call hb).elim
    · rcases List.mem_append.1 hf with hf | hf <;> obtain ⟨m, hm, rfl⟩ := List.mem_map.1 hf <;> cases hb
      exact ⟨_, rfl, names_trait hu (List.mem_filter.1 hm).1⟩

/-! ## The code knows its method throughout -/

/-- Stores and static expectations belong to the method of their module. -/
structure Marked (S : List Item) (s : Ident) (info : List Ident → MethodInfo V) (σ : GState V) : Prop where
  objs : ∀ (o : Nat) (μ : Fields V), σ.objs[o]? = some (some μ) →
    ∀ p md g, StoreAt S s p md g → (μ p).mi = infoAt info md g
  statics : ∀ md, (σ.statics md).mi = info md

theorem set_mi (μ : Fields V) (p : List Ident) (st : Store V) (q : List Ident) : (μ.set p st q).mi = (μ q).mi := by
  unfold Fields.set
  split
  · next h => rw [h]
  · rfl

theorem checkpointAll_mi (env : Env V) : ∀ (l : List (List Ident)) (μ : Fields V) (q : List Ident),
    ((checkpointAll env l μ).2 q).mi = (μ q).mi
  | [], _, _ => rfl
  | p :: l, μ, q => by
    unfold checkpointAll
    split
    · exact set_mi _ _ _ _
    · rw [checkpointAll_mi env l, set_mi]

theorem marked_step {S : List Item} {s : Ident} {info : List Ident → MethodInfo V} {env : Env V} {σ σ' : GState V}
    {op : GOp V} {x : Obs V} (h : GStep S s info env σ op x σ') (hm : Marked S s info σ) : Marked S s info σ' := by
  obtain ⟨ho, hst⟩ := hm
  have set : ∀ (o : Nat) (μ ν : Fields V), σ.objs[o]? = some (some μ) → (∀ q, (ν q).mi = (μ q).mi) →
      ∀ (o' : Nat) (μ' : Fields V), (σ.objs.set o (some ν))[o']? = some (some μ') →
        ∀ p md g, StoreAt S s p md g → (μ' p).mi = infoAt info md g := by
    intro o μ ν h1 h2 o' μ' h3 p md g hp
    rw [List.getElem?_set] at h3
    split at h3
    · split at h3
      · cases h3; rw [h2]; exact ho o μ h1 p md g hp
      · cases h3
    · exact ho o' μ' h3 p md g hp
  have stat : ∀ (md : List Ident) (f : StaticFn V), f.mi = (σ.statics md).mi →
      ∀ md', ((σ.setStatic md f).statics md').mi = info md' := by
    intro md f hf md'
    unfold GState.setStatic
    dsimp only
    split
    · next e => rw [hf, e]; exact hst _
    · exact hst _
  cases h with
  | new μ hd hμ =>
    refine ⟨fun o ν h p md g hp => ?_, hst⟩
    rw [List.getElem?_append] at h
    split at h
    · exact ho o ν h p md g hp
    · cases hz : o - σ.objs.length with
      | zero => rw [hz] at h; cases h; rw [hμ p md g hp]
      | succ => rw [hz] at h; cases h
  | expect o n k bs μ p md g h1 => exact ⟨set o μ _ h1 (set_mi _ _ _), hst⟩
  | call o t n k tid args upd μ p md g h1 => exact ⟨set o μ _ h1 (set_mi _ _ _), hst⟩
  | checkpoint o μ l h1 => exact ⟨set o μ _ h1 (checkpointAll_mi _ _ _), hst⟩
  | drop o b μ l h1 =>
    refine ⟨fun o' μ' h3 => ?_, hst⟩
    rw [List.getElem?_set] at h3
    split at h3
    · split at h3 <;> cases h3
    · exact ho o' μ' h3
  | scall t n k tid args md _ _ r hr =>
    refine ⟨ho, stat md _ ?_⟩
    rw [hr]; unfold StaticFn.call; split <;> rfl
  | sexpect n k bs md _ _ r hr =>
    refine ⟨ho, stat md _ ?_⟩
    rw [hr]; unfold StaticFn.expect; split <;> rfl
  | scheckpoint n md _ _ r hr =>
    refine ⟨ho, stat md _ ?_⟩
    rw [hr]; unfold StaticFn.checkpoint; split <;> rfl
  | sdrop n b md _ _ r hr =>
    refine ⟨ho, stat md _ ?_⟩
    rw [hr]; unfold StaticFn.dropContext StaticFn.checkpoint
    split
    · rfl
    · split <;> rfl

theorem marked_run {S : List Item} {s : Ident} {info : List Ident → MethodInfo V} {env : Env V} {σ τ : GState V}
    {ops : List (GOp V)} {xs : List (Obs V)} (h : GRun S s info env σ ops xs τ) (hm : Marked S s info σ) :
    Marked S s info τ := by
  induction h with
  | nil => exact hm
  | cons h _ ih => exact ih (marked_step h hm)

/-! ## Programs of the runtime -/

theorem log_length (env : Env V) (sts : List (MethodInfo V)) (ops : List (Op V)) :
    (Sys.run env ops (Sys.init sts)).2.world.log.length ≤ ops.length := by
  have := run_induct (env := env) (fun done _ w => w.log.length ≤ done.length)
    (fun done op l w ob l' w' h hE => by
      rw [List.length_append, List.length_singleton]
      cases hE with
      | quiet => omega
      | expect => exact Nat.le_succ_of_le h
      | pred => omega
      | hit info hc hm hl hr =>
        obtain ⟨b, -, hw⟩ := Expectation.call_world _ info _ _ w
        rw [hw, List.length_append, List.length_singleton]
        omega) ops (Sys.init sts) []
    (by simp [Sys.init])
  simpa using this

theorem same_builds {S : List Item} {s : Ident} {l : List (List Ident)} {ms : List (MethodInfo V)}
    {mods : List (List Ident)} {op : GOp V} {op' : Op V} (h : Same S s l ms mods op op') :
    op'.builds?.getD [] = op.builds := by cases h <;> rfl

theorem same_buildsOf {S : List Item} {s : Ident} {l : List (List Ident)} {ms : List (MethodInfo V)}
    {mods : List (List Ident)} {ops : List (GOp V)} {ops' : List (Op V)}
    (h : Pointwise (Same S s l ms mods) ops ops') : buildsOf ops' = builderCalls ops := by
  induction h with
  | nil => rfl
  | cons h _ ih =>
    unfold buildsOf builderCalls at *
    rw [List.flatMap_cons, List.flatMap_cons, ih, same_builds h]

/-- What the proofs below need to know of a program. -/
structure Mirror (S : List Item) (s : Ident) (info : List Ident → MethodInfo V) (env : Env V) (ops : List (GOp V))
    (σ : GState V) where
  l : List (List Ident)
  mods : List (List Ident)
  ms : List (MethodInfo V)
  prog : List (Op V)
  stores : ∀ p, p ∈ l ↔ ∃ m, IsStore S s p m
  modules : ∀ m, m ∈ mods ↔ HasModule S m
  same : Pointwise (Same S s l ms mods) ops prog
  sim : Sim l mods σ (Sys.run env prog (.init (mods.map info))).2
  step : ∀ {op x σ'}, GStep S s info env σ op x σ' → ∃ op', Same S s l ms mods op op' ∧
    ((Sys.run env prog (.init (mods.map info))).2.step env op').1 = x
  short : (logOf env (mods.map info) prog).length < usizeMax
  tame : ∀ c, ∀ e ∈ (Sys.run env prog (.init (mods.map info))).2.target c, Tame (countArg e.chain)
  chain : ∀ c, ∀ e ∈ (Sys.run env prog (.init (mods.map info))).2.target c, ∀ b ∈ e.chain, b ∈ builderCalls ops

theorem mirror {hash : List Args → Nat} {m : MockableStruct} {items : List Item}
    (h : expandStruct hash m = .ok items) {c : Config} (hs : ∀ a ∈ m.attrs, c.lets a = true)
    (hacc : Accepted (c.strip items)) {info : List Ident → MethodInfo V} {env : Env V} {ops : List (GOp V)}
    {xs : List (Obs V)} {σ : GState V} (hr : GRun (c.strip items) m.name info env (.init info) ops xs σ)
    (hm : Moderate ops) : Nonempty (Mirror (c.strip items) m.name info env ops σ) := by
  obtain ⟨l, k1, k2, k3, k4⟩ := C52_checkpoint hash m items h c hs hacc
  obtain ⟨mi, e1, ⟨L⟩⟩ := expand_steps h
  have hone : OneCheckpoint (c.strip items) := by
    refine one_checkpoint L ?_ hacc
    simp only [mockItemStruct, gen_bind_ok, gen_pure_ok] at e1
    obtain ⟨_, -, _, -, rfl⟩ := e1
    exact active_format_of c _ _ hs
  obtain ⟨mods, m1, m2⟩ := modules_list (c.strip items)
  obtain ⟨ms, hms⟩ := slots_list (S := c.strip items) (s := m.name) info l fun p hp => (k4 p).1 hp
  obtain ⟨hlen, hat⟩ := pointwise_at hms
  have hms' : ∀ (i : Nat) p md g, l[i]? = some p → StoreAt (c.strip items) m.name p md g →
      ms[i]? = some (infoAt info md g) := fun i p md g hi hp => by
    obtain ⟨b, hb, md', g', hp', rfl⟩ := hat i p hi
    obtain ⟨rfl, rfl⟩ := storeAt_unique hacc hp hp'
    exact hb
  obtain ⟨ops', r1, r2, r3⟩ := sim_run hacc hone k1 k2 k3 k4 m1 m2 hms' hlen.symm hr (y := .init (mods.map info))
    ⟨rfl, by simp [Sys.init, GState.init], rfl⟩
  have hch : ∀ c, ∀ e ∈ (Sys.run env ops' (.init (mods.map info))).2.target c, ∀ b ∈ e.chain,
      b ∈ builderCalls ops := fun c e he b hb => by
    rw [← same_buildsOf r1]
    exact chain_run env _ ops' e (target_all _ c e he) b hb
  refine ⟨⟨l, mods, ms, ops', k4, m2, r1, r3, fun hst => ?_, ?_, ?_, hch⟩⟩
  · obtain ⟨op', a1, a2, -⟩ := sim_step hacc hone k1 k2 k3 k4 m1 m2 hms' hlen.symm r3 hst
    exact ⟨op', a1, a2⟩
  · refine Nat.lt_of_le_of_lt (log_length env _ ops') ?_
    rw [← (pointwise_at r1).1]
    exact hm.short
  · intro c e he
    rcases lastOf_origin timesOf .rangeFull e.chain with hd | ⟨b, hb, hg⟩
    · unfold countArg; rw [hd]; trivial
    · exact hm.tame b (hch c e he b hb) _ hg

theorem Store.target_all (st : Store V) (k : Key) : ∀ e ∈ st.target k, e ∈ st.all := by
  intro e he
  cases st with
  | concrete es => exact he
  | generic m =>
    simp only [Store.target] at he
    cases hg : GMap.get m k with
    | none => simp [hg] at he
    | some es =>
      obtain ⟨a, b, h1, _⟩ := GMap.get_split hg
      simp only [hg, Option.getD_some] at he
      simp only [Store.all, h1]
      simp [he]

/-! ## The property -/

theorem texts_of {hash : List Args → Nat} {m : MockableStruct} {texts : List Texts}
    (h : structTexts hash m = .ok texts) {mi : MockItemStruct} (hm : mockItemStruct hash m = .ok mi) :
    mi.texts = texts ∧ mi.name = m.name ∧ ∀ c : Config, (∀ a ∈ m.attrs, c.lets a = true) →
      c.active (mainAttrs mi) = true := by
  simp only [structTexts, gen_bind_ok, gen_pure_ok] at h
  obtain ⟨mi', h', rfl⟩ := h
  rw [hm] at h'
  cases h'
  simp only [mockItemStruct, gen_bind_ok, gen_pure_ok] at hm
  obtain ⟨_, -, _, -, rfl⟩ := hm
  exact ⟨rfl, rfl, fun c hs => active_format_of c _ _ hs⟩

/-- What a method of the mock `s` may panic with when called: the exceptions, or a message that begins with
its name. -/
def CallMessage (s n : Ident) (ops : List (GOp V)) (env : Env V) (tid : Nat) (args : List V) (p : Panic) : Prop :=
  p = .poisoned ∨
  (∃ b ∈ builderCalls ops, Raises p b) ∨
  ((p = .fragile ∨ p = .fragileMove) ∧ ∃ b ∈ builderCalls ops, ∃ t, registeredOn b = some t ∧ t ≠ tid) ∨
  p.render = callText (s ++ "::" ++ n) (args.map env.dbg) ++ ": No matching expectation found" ∨
  p.render = callText (s ++ "::" ++ n) (args.map env.dbg) ++ ": Method sequence violation" ∨
  ∃ chain why, (∀ b ∈ chain, b ∈ builderCalls ops) ∧
    p.render = s ++ "::" ++ n ++ ": Expectation(" ++ describe chain ++ ") " ++ why

theorem call_message {S : List Item} {s : Ident} {info : List Ident → MethodInfo V} {env : Env V}
    {ops : List (GOp V)} {σ : GState V} (M : Mirror S s info env ops σ) {c : Callee} {mi : MethodInfo V}
    {n : Ident} (hi : (Sys.run env M.prog (.init (M.mods.map info))).2.infoOf c = some mi)
    (h1 : mi.base.funcname = s ++ "::" ++ n) (h2 : mi.base.descname = s ++ "::" ++ n) {tid : Nat} {args : List V}
    {u : V → V} {p : Panic}
    (hp : ((Sys.run env M.prog (.init (M.mods.map info))).2.step env (c.op tid args u)).1 = .value (.error p)) :
    CallMessage s n ops env tid args p := by
  have := C55_call_partial env (M.mods.map info) M.prog c mi tid args u p hi M.short (M.tame c) hp
  rw [h1, h2] at this
  rcases this with h | ⟨e, he, b, hb, h⟩ | ⟨h, e, he, b, hb, h'⟩ | h | h | ⟨e, he, why, h⟩
  · exact .inl h
  · exact .inr (.inl ⟨b, M.chain c e he b hb, h⟩)
  · exact .inr (.inr (.inl ⟨h, b, M.chain c e he b hb, h'⟩))
  · exact .inr (.inr (.inr (.inl h)))
  · exact .inr (.inr (.inr (.inr (.inl h))))
  · exact .inr (.inr (.inr (.inr (.inr ⟨e.chain, why, M.chain c e he, h⟩))))

theorem init_marked (S : List Item) (s : Ident) (info : List Ident → MethodInfo V) :
    Marked S s info (.init info) := ⟨fun o μ h => by simp [GState.init] at h, fun _ => rfl⟩

/-- **C82, calls of methods.**  If, after any program, a call of the method `n` of a generated mock panics, then
the message begins with the names of the mock and of the method, unless the panic is that of user code
handed to an expectation, of a single threaded closure used on another thread, or the `PoisonError` of a
mutex poisoned by an earlier panic. -/
theorem C82_call (hash : List Args → Nat) (m : MockableStruct) (items : List Item)
    (h : expandStruct hash m = .ok items) (texts : List Texts) (ht : structTexts hash m = .ok texts)
    (c : Config) (hs : ∀ a ∈ m.attrs, c.lets a = true) (hacc : Accepted (c.strip items))
    (info : List Ident → MethodInfo V) (hinfo : Prints texts info) (env : Env V)
    (ops : List (GOp V)) (xs : List (Obs V)) (σ : GState V) (hm : Moderate ops)
    (hr : GRun (c.strip items) m.name info env (.init info) ops xs σ)
    (o : Nat) (t : Option TraitPath) (n : Ident) (k : Key) (tid : Nat) (args : List V) (upd : V → V) (p : Panic)
    (σ' : GState V)
    (hst : GStep (c.strip items) m.name info env σ (.call o t n k tid args upd) (.value (.error p)) σ') :
    CallMessage m.name n ops env tid args p := by
  obtain ⟨M⟩ := mirror h hs hacc hr hm
  obtain ⟨mi, e1, ⟨L⟩⟩ := expand_steps h
  obtain ⟨rfl, hn, ha⟩ := texts_of ht e1
  have hmark := marked_run hr (init_marked _ _ _)
  have ho : ∃ μ : Fields V, σ.objs[o]? = some (some μ) := by
    generalize hx : Obs.value (.error p) = x at hst
    cases hst
    exact ⟨_, ‹_›⟩
  obtain ⟨μ, ho⟩ := ho
  obtain ⟨op', hsame, hobs⟩ := M.step hst
  cases hsame with
  | call _ _ _ _ _ _ _ q i hf hi =>
    obtain ⟨md, hmd⟩ := (M.stores q).1 (List.mem_of_getElem? hi)
    obtain ⟨g, hat⟩ := isStore_storeAt.1 hmd
    obtain ⟨n', k1, e, he, rfl, k2, k3⟩ := storeAt_origin L (ha c hs) hacc (hn ▸ hat)
    have : n' = n := by
      simp only [mockItemStruct, gen_bind_ok, gen_pure_ok] at e1
      obtain ⟨ms, hms, ts, hts, rfl⟩ := e1
      rcases call_origin L (fun x hx => by
          obtain ⟨f, -, hf⟩ := mapM_mem' hms hx
          exact (methOf_ok hf).2.1) (fun u hu x hx => by
          obtain ⟨j, -, hj⟩ := mapM_mem' hts hu
          exact (mockTrait_ok hj).2.2.2.2.1 x hx) hf with ⟨-, rfl⟩ | ⟨u, -, -, -, rfl⟩ <;>
        simpa using k1.symm
    subst this
    have hfld : (Sys.run env M.prog (.init (M.mods.map info))).2.infoOf (.inst o i k) =
        some (infoAt info e.module g) := by
      simp only [Sys.infoOf, M.sim.objs, List.getElem?_map, ho, Option.map_some, hi]
      rw [hmark.objs o μ ho q _ g hat]
    rw [hn] at k2 k3
    exact call_message M hfld ((hinfo e he).1.trans k2) ((hinfo e he).2.trans k3) hobs

/-- **C82, calls of static methods.** -/
theorem C82_static (hash : List Args → Nat) (m : MockableStruct) (items : List Item)
    (h : expandStruct hash m = .ok items) (texts : List Texts) (ht : structTexts hash m = .ok texts)
    (c : Config) (hs : ∀ a ∈ m.attrs, c.lets a = true) (hacc : Accepted (c.strip items))
    (info : List Ident → MethodInfo V) (hinfo : Prints texts info) (env : Env V)
    (ops : List (GOp V)) (xs : List (Obs V)) (σ : GState V) (hm : Moderate ops)
    (hr : GRun (c.strip items) m.name info env (.init info) ops xs σ)
    (t : Option TraitPath) (n : Ident) (k : Key) (tid : Nat) (args : List V) (p : Panic) (σ' : GState V)
    (hst : GStep (c.strip items) m.name info env σ (.scall t n k tid args) (.value (.error p)) σ') :
    CallMessage m.name n ops env tid args p := by
  obtain ⟨M⟩ := mirror h hs hacc hr hm
  obtain ⟨mi, e1, ⟨L⟩⟩ := expand_steps h
  obtain ⟨rfl, hn, ha⟩ := texts_of ht e1
  have hmark := marked_run hr (init_marked _ _ _)
  obtain ⟨op', hsame, hobs⟩ := M.step hst
  cases hsame with
  | scall _ _ _ _ _ md i hf hi =>
    obtain ⟨e, he, rfl, k2, k3⟩ := static_origin L hf
    have hfld : (Sys.run env M.prog (.init (M.mods.map info))).2.infoOf (.stat i k) = some (info e.module) := by
      simp only [Sys.infoOf, M.sim.statics, List.getElem?_map, Option.map_some, hi]
      rw [hmark.statics]
    rw [hn] at k2 k3
    exact call_message (u := id) M hfld ((hinfo e he).1.trans k2) ((hinfo e he).2.trans k3) hobs

/-- **C82, verification of objects.**  If, after any program, a checkpoint or the drop of a mock panics then, unless
it is a `PoisonError`, the message begins with the names of the mock and of a method, and states the matcher, the
permitted and the actual number of calls of an expectation in the store of that method. -/
theorem C82_verify (hash : List Args → Nat) (m : MockableStruct) (items : List Item)
    (h : expandStruct hash m = .ok items) (texts : List Texts) (ht : structTexts hash m = .ok texts)
    (c : Config) (hs : ∀ a ∈ m.attrs, c.lets a = true) (hacc : Accepted (c.strip items))
    (info : List Ident → MethodInfo V) (hinfo : Prints texts info) (env : Env V) (hfair : env.Fair)
    (ops : List (GOp V)) (xs : List (Obs V)) (σ : GState V) (hm : Moderate ops)
    (hr : GRun (c.strip items) m.name info env (.init info) ops xs σ)
    (o : Nat) (op : GOp V) (hop : op = .checkpoint o ∨ ∃ b, op = .drop o b) (p : Panic) (ab : Bool) (σ' : GState V)
    (hst : GStep (c.strip items) m.name info env σ op (.unit (.error p) ab) σ') :
    p = .poisoned ∨ ∃ μ q md n, σ.objs[o]? = some (some μ) ∧ IsStore (c.strip items) m.name q md ∧
      q.getLast? = some n ∧ ∃ e ∈ (μ q).store.elems env,
        Unmet (m.name ++ "::" ++ n) (describe e.chain) (window (countArg e.chain)).1 (window (countArg e.chain)).2
          (σ.callsTo e) p.render := by
  obtain ⟨M⟩ := mirror h hs hacc hr hm
  obtain ⟨mi, e1, ⟨L⟩⟩ := expand_steps h
  obtain ⟨rfl, hn, ha⟩ := texts_of ht e1
  have hmark := marked_run hr (init_marked _ _ _)
  obtain ⟨op', hsame, hobs⟩ := M.step hst
  have hv : Op.verifying op' = true ∧ ∀ x, Verifies op' x → ∃ i k, x = .inst o i k := by
    rcases hop with rfl | ⟨b, rfl⟩ <;> cases hsame <;> refine ⟨rfl, fun x hx => ?_⟩ <;> cases x with
    | inst o' i k => exact ⟨i, k, by cases hx; rfl⟩
    | stat f k => cases hx
  rcases C55_verify_partial env env hfair (M.mods.map info) M.prog op' p ab M.short M.tame hv.1 hobs with h | ⟨x, fi,
    hx, hfi, e, he, hun⟩
  · exact .inl h
  · obtain ⟨i, k, rfl⟩ := hv.2 x hx
    rcases ho : σ.objs[o]? with _ | _ | μ
    · simp [Sys.infoOf, M.sim.objs, ho] at hfi
    · simp [Sys.infoOf, M.sim.objs, ho] at hfi
    · simp only [Sys.infoOf, Sys.target, M.sim.objs, List.getElem?_map, ho, Option.map_some] at hfi he
      rcases hi : M.l[i]? with _ | q
      · simp [hi] at hfi
      · simp only [hi, Option.map_some, Option.some.injEq] at hfi he
        obtain ⟨md, hmd⟩ := (M.stores q).1 (List.mem_of_getElem? hi)
        obtain ⟨g, hat⟩ := isStore_storeAt.1 hmd
        obtain ⟨n, k1, t, ht, rfl, k2, -⟩ := storeAt_origin L (ha c hs) hacc (hn ▸ hat)
        rw [hmark.objs o μ ho q _ g hat] at hfi
        subst hfi
        refine .inr ⟨μ, q, _, n, rfl, hmd, k1, e, ?_, ?_⟩
        · exact (Store.mem_elems hfair _ _).2 (Store.target_all _ _ e he)
        · rw [← hn, ← k2, ← (hinfo t ht).1]
          unfold callsTo at hun
          unfold GState.callsTo
          rw [← M.sim.world]
          exact hun

/-- **C82, verification of static methods.** -/
theorem C82_verify_static (hash : List Args → Nat) (m : MockableStruct) (items : List Item)
    (h : expandStruct hash m = .ok items) (texts : List Texts) (ht : structTexts hash m = .ok texts)
    (c : Config) (hs : ∀ a ∈ m.attrs, c.lets a = true) (hacc : Accepted (c.strip items))
    (info : List Ident → MethodInfo V) (hinfo : Prints texts info) (env : Env V) (hfair : env.Fair)
    (ops : List (GOp V)) (xs : List (Obs V)) (σ : GState V) (hm : Moderate ops)
    (hr : GRun (c.strip items) m.name info env (.init info) ops xs σ)
    (n : Ident) (op : GOp V) (hop : op = .scheckpoint n ∨ ∃ b, op = .sdrop n b) (p : Panic) (ab : Bool)
    (σ' : GState V) (hst : GStep (c.strip items) m.name info env σ op (.unit (.error p) ab) σ') :
    p = .poisoned ∨ ∃ x md, n = x ++ "_context" ∧ HasFn (c.strip items) m.name none n (.context md) ∧
      ∃ e ∈ (σ.statics md).store.elems env,
        Unmet (m.name ++ "::" ++ x) (describe e.chain) (window (countArg e.chain)).1 (window (countArg e.chain)).2
          (σ.callsTo e) p.render := by
  obtain ⟨M⟩ := mirror h hs hacc hr hm
  obtain ⟨mi, e1, ⟨L⟩⟩ := expand_steps h
  obtain ⟨rfl, hn, ha⟩ := texts_of ht e1
  have hmark := marked_run hr (init_marked _ _ _)
  obtain ⟨op', hsame, hobs⟩ := M.step hst
  have hv : ∃ i md, HasFn (c.strip items) m.name none n (.context md) ∧ M.mods[i]? = some md ∧
      Op.verifying op' = true ∧ ∀ x, Verifies op' x → ∃ k, x = .stat i k := by
    rcases hop with rfl | ⟨b, rfl⟩ <;> cases hsame <;> refine ⟨_, _, ‹_›, ‹_›, rfl, fun x hx => ?_⟩ <;> cases x with
    | inst o' i k => cases hx
    | stat f k => exact ⟨k, by cases hx; rfl⟩
  obtain ⟨i, md, hf, hi, hv1, hv2⟩ := hv
  rcases C55_verify_partial env env hfair (M.mods.map info) M.prog op' p ab M.short M.tame hv1 hobs with h | ⟨x, fi,
    hx, hfi, e, he, hun⟩
  · exact .inl h
  · obtain ⟨k, rfl⟩ := hv2 x hx
    obtain ⟨n', rfl, t, ht, rfl, k2, -⟩ := context_origin L hf
    simp only [Sys.infoOf, Sys.target, M.sim.statics, List.getElem?_map, hi, Option.map_some,
      Option.some.injEq] at hfi he
    rw [hmark.statics] at hfi
    subst hfi
    refine .inr ⟨n', _, rfl, hf, e, ?_, ?_⟩
    · exact (Store.mem_elems hfair _ _).2 (Store.target_all _ _ e he)
    · rw [← hn, ← k2, ← (hinfo t ht).1]
      unfold callsTo at hun
      unfold GState.callsTo
      rw [← M.sim.world]
      exact hun

/-- What the code knows, for the example below. -/
def exInfo (texts : List Texts) (md : List Ident) : MethodInfo Nat :=
  let e := (texts.find? (·.module = md)).getD ⟨[], "", ""⟩
  ⟨false, ⟨.static, e.func, e.desc, none⟩, fun _ => none⟩

/-- The mock of the example: a call without expectations, and the message. -/
theorem C82_inhabited (env : Env Nat) : ∃ items texts, expandStruct (fun _ => 0) exStruct = .ok items ∧
    structTexts (fun _ => 0) exStruct = .ok texts ∧ Accepted (unix.strip items) ∧
    Prints texts (exInfo texts) ∧ Moderate [GOp.new (V := Nat)] ∧
    ∃ xs σ, GRun (unix.strip items) "MockFoo" (exInfo texts) env (.init (exInfo texts)) [.new] xs σ ∧
      ∃ p σ', GStep (unix.strip items) "MockFoo" (exInfo texts) env σ (.call 0 none "foo" 0 0 [7] id)
          (.value (.error p)) σ' ∧
        p.render = "MockFoo::foo(" ++ env.dbg 7 ++ "): No matching expectation found" := by
  have h : (expandStruct (fun _ => 0) exStruct).toOption.map (fun l => accepts (unix.strip l)) =
    some true := by decide +kernel
  have h' : (structTexts (fun _ => 0) exStruct).toOption.map (fun l =>
      l.all (fun e => (exInfo l e.module).base.funcname = e.func ∧ (exInfo l e.module).base.descname = e.desc)) =
      some true := by decide +kernel
  cases he : expandStruct (fun _ => 0) exStruct with
  | error e => rw [he] at h; cases h
  | ok items =>
    cases ht : structTexts (fun _ => 0) exStruct with
    | error e => rw [ht] at h'; cases h'
    | ok texts =>
      rw [he] at h
      rw [ht] at h'
      simp only [Except.toOption, Option.map_some, Option.some.injEq] at h h'
      have hacc := accepted_of h
      have hp : Prints texts (exInfo texts) := fun e he => by
        simpa using List.all_eq_true.1 h' e he
      have hs : ∀ a ∈ exStruct.attrs, unix.lets a = true := nofun
      refine ⟨items, texts, rfl, rfl, hacc, hp, ⟨by decide, nofun⟩, ?_⟩
      obtain ⟨x1, σ1, h1⟩ := (C72_object _ exStruct items he unix hs hacc (exInfo texts) env (.init _)).1
      refine ⟨_, σ1, .cons h1 (.nil σ1), ?_⟩
      cases h1 with
      | new μ hd hμ =>
        obtain ⟨md, k1, -, k3, -⟩ := C52_instance _ exStruct items he unix hs
          { sig := { ident := "foo", inputs := [selfArg] } } List.mem_cons_self (by simp [IsMethod, selfArg]) nofun
        obtain ⟨g, hg⟩ := isStore_storeAt.1 k3
        have hx := hμ _ md g hg
        have hst := GStep.call (info := exInfo texts) (env := env)
          { GState.init (exInfo texts) with objs := (GState.init (exInfo texts)).objs ++ [some μ] } 0 none "foo" 0 0 [7]
          id μ _ md g rfl k1 hg _ rfl
        obtain ⟨mi, e1, ⟨L⟩⟩ := expand_steps he
        obtain ⟨e2, hn, ha⟩ := texts_of ht e1
        obtain ⟨n, k4, e, k5, k6, -, k7⟩ := storeAt_origin L (ha unix hs) hacc (hn ▸ hg)
        rw [e2] at k5
        have hd := (hp e k5).2
        rw [hx] at hst
        have hobs : ∀ w : World Nat, expectMatch (⟨env.nightly, 0, env.dbg, id⟩ : Cx Nat) ((infoAt (exInfo texts) md g).fn 0) [7]
            ((Store.new (infoAt (exInfo texts) md g)).call ⟨env.nightly, 0, env.dbg, id⟩ (infoAt (exInfo texts) md g) 0
              [7] w).1 = .error (.noMatch (callDesc ⟨env.nightly, 0, env.dbg, id⟩ ((infoAt (exInfo texts) md g).fn 0) [7])) := by
          intro w
          unfold Store.new
          split <;> rfl
        rw [hobs] at hst
        refine ⟨_, _, hst, ?_⟩
        have e3 : n = "foo" := by simpa using k4.symm
        have e4 : ((infoAt (exInfo texts) md g).fn 0).descname = "MockFoo::foo" := by
          subst k6 e3
          rw [hn] at k7
          exact hd.trans (k7.trans (by decide +kernel))
        simp only [Panic.render, callDesc, e4, List.map_cons, List.map_nil]
        have : ", ".intercalate [env.dbg 7] = env.dbg 7 := by simp [String.intercalate_singleton]
        rw [this, show "MockFoo::foo(" = "MockFoo::foo" ++ "(" by decide +kernel,
          show "): No matching expectation found" = ")" ++ ": No matching expectation found" by decide +kernel]
        simp only [String.append_assoc]

/-- The mock of the example: an expectation for `stat` that is to be called once and is not called; `checkpoint` and the
drop of the context panic. -/
theorem C82_verify_inhabited (env : Env Nat) : ∃ items texts, expandStruct (fun _ => 0) exStruct = .ok items ∧
    structTexts (fun _ => 0) exStruct = .ok texts ∧ Accepted (unix.strip items) ∧
    Prints texts (exInfo texts) ∧ Moderate [GOp.sexpect (V := Nat) "stat_context" 0 [.once]] ∧
    ∃ xs σ, GRun (unix.strip items) "MockFoo" (exInfo texts) env (.init (exInfo texts))
        [.sexpect "stat_context" 0 [.once]] xs σ ∧
      ∀ op ∈ [GOp.scheckpoint "stat_context", .sdrop "stat_context" false], ∃ f d σ',
        GStep (unix.strip items) "MockFoo" (exInfo texts) env σ op (.unit (.error (.tooFewAtDrop f d 0 1)) false) σ' := by
  have h : (expandStruct (fun _ => 0) exStruct).toOption.map (fun l => accepts (unix.strip l)) =
    some true := by decide +kernel
  have h' : (structTexts (fun _ => 0) exStruct).toOption.map (fun l =>
      l.all (fun e => (exInfo l e.module).base.funcname = e.func ∧ (exInfo l e.module).base.descname = e.desc)) =
      some true := by decide +kernel
  cases he : expandStruct (fun _ => 0) exStruct with
  | error e => rw [he] at h; cases h
  | ok items =>
    cases ht : structTexts (fun _ => 0) exStruct with
    | error e => rw [ht] at h'; cases h'
    | ok texts =>
      rw [he] at h
      rw [ht] at h'
      simp only [Except.toOption, Option.map_some, Option.some.injEq] at h h'
      have hacc := accepted_of h
      have hp : Prints texts (exInfo texts) := fun e he => by
        simpa using List.all_eq_true.1 h' e he
      have hs : ∀ a ∈ exStruct.attrs, unix.lets a = true := nofun
      obtain ⟨md, -, k2, k3, -⟩ := C52_static _ exStruct items he unix hs hacc { sig := { ident := "stat" } }
        (by simp [exStruct]) (by simp [IsMethod]) nofun
      have e : ({ ident := "stat" } : Sig).ident ++ "_context" = "stat_context" := by decide +kernel
      rw [e] at k2
      refine ⟨items, texts, rfl, rfl, hacc, hp, ⟨by decide, ?_⟩, ?_⟩
      · intro b hb a ha
        rw [show b = .once by simpa [builderCalls, GOp.builds] using hb] at ha
        cases ha
        exact (by decide : 1 < usizeMax)
      have key : ∀ w : World Nat, ∃ d, (((StaticFn.new (exInfo texts md)).expect env.nightly 0 [.once] w).2.1.checkpoint
          env false).1 = (.error (.tooFewAtDrop (exInfo texts md).base.funcname d 0 1), false) := fun w => ⟨_, rfl⟩
      have s1 := GStep.sexpect (info := exInfo texts) (env := env) (.init (exInfo texts)) "stat_context" 0 [.once] md k2 k3 _ rfl
      obtain ⟨d, key⟩ := key (GState.init (exInfo texts)).world
      refine ⟨_, _, .cons s1 (.nil _), fun op hop => ⟨(exInfo texts md).base.funcname, d, ?_⟩⟩
      simp only [List.mem_cons, List.not_mem_nil, or_false] at hop
      rcases hop with rfl | rfl
      · have s2 := GStep.scheckpoint (info := exInfo texts) (env := env)
          { (GState.init (exInfo texts)).setStatic md (((GState.init (exInfo texts)).statics md).expect env.nightly 0 [.once]
              (GState.init (exInfo texts)).world).2.1 with
            world := (((GState.init (exInfo texts)).statics md).expect env.nightly 0 [.once]
              (GState.init (exInfo texts)).world).2.2 } "stat_context" md k2 k3 _ rfl
        simp only [GState.setStatic, if_true] at s2
        rw [show (GState.init (exInfo texts)).statics md = StaticFn.new (exInfo texts md) from rfl, key] at s2
        exact ⟨_, s2⟩
      · have s2 := GStep.sdrop (info := exInfo texts) (env := env)
          { (GState.init (exInfo texts)).setStatic md (((GState.init (exInfo texts)).statics md).expect env.nightly 0 [.once]
              (GState.init (exInfo texts)).world).2.1 with
            world := (((GState.init (exInfo texts)).statics md).expect env.nightly 0 [.once]
              (GState.init (exInfo texts)).world).2.2 } "stat_context" false md k2 k3 _ rfl
        simp only [GState.setStatic, if_true, StaticFn.dropContext, Bool.false_eq_true, if_false] at s2
        rw [show (GState.init (exInfo texts)).statics md = StaticFn.new (exInfo texts md) from rfl, key] at s2
        exact ⟨_, s2⟩

end Mockall.Props
