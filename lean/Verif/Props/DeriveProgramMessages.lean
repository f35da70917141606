import Verif.Props.DeriveMessages
import Verif.Props.DeriveProgram

/-! # C82 in programs with several mocks, structs and modules -/

namespace Mockall.Props

open Derive Spec

variable {V : Type}

/-! ## Functions of a module -/

/-- The texts of the function `n` of the mock module of `m`. -/
def ModNames (m n md : Ident) (texts : List Texts) : Prop :=
  ∃ e ∈ texts, e.module = [md] ∧ e.func = n ∧ e.desc = "mock_" ++ m ++ "::" ++ n

theorem foreign_parent {parent : Ident} {abi : Option String} {l : List ForeignItem} {r : List ModContent}
    (h : foreignContent parent abi l = .ok r) : ∀ f, .fn f ∈ r → f.parent = parent := by
  induction l generalizing r with
  | nil =>
    simp only [foreignContent, gen_pure_ok] at h
    subst h
    exact fun f hf => (List.not_mem_nil hf).elim
  | cons x l ih =>
    cases x with
    | fn g =>
      simp only [foreignContent, modMeth, gen_bind_ok, gen_pure_ok] at h
      obtain ⟨a, ⟨fn, -, rfl⟩, b, hb, rfl⟩ := h
      intro f hf
      rcases List.mem_cons.1 hf with hf | hf
      · cases hf; rfl
      · exact ih hb f hf
    | other t => cases h

theorem content_parent {parent : Ident} {l : List ModItem} {r : List ModContent}
    (h : modContent parent l = .ok r) : ∀ f, .fn f ∈ r → f.parent = parent := by
  induction l generalizing r with
  | nil =>
    simp only [modContent, gen_pure_ok] at h
    subst h
    exact fun f hf => (List.not_mem_nil hf).elim
  | cons x l ih =>
    cases x with
    | externCrate t => exact ih h
    | impl t => exact ih h
    | copied k t =>
      simp only [modContent, gen_bind_ok, gen_pure_ok] at h
      obtain ⟨b, hb, rfl⟩ := h
      intro f hf
      rcases List.mem_cons.1 hf with hf | hf
      · cases hf
      · exact ih hb f hf
    | fn g =>
      simp only [modContent, modMeth, gen_bind_ok, gen_pure_ok] at h
      obtain ⟨a, ⟨fn, -, rfl⟩, b, hb, rfl⟩ := h
      intro f hf
      rcases List.mem_cons.1 hf with hf | hf
      · cases hf; rfl
      · exact ih hb f hf
    | foreignMod a abi items =>
      simp only [modContent, gen_bind_ok, gen_pure_ok] at h
      obtain ⟨fs, hfs, b, hb, rfl⟩ := h
      intro f hf
      rcases List.mem_append.1 hf with hf | hf
      · exact foreign_parent hfs f hf
      · exact ih hb f hf
    | nested t => cases h
    | other t => cases h

/-- The mock module that the code is generated from. -/
theorem module_steps {m : ItemMod} {o : OutMod} (h : expandModule m = .ok o) {texts : List Texts}
    (ht : moduleTexts m = .ok texts) : ∃ mm : MockItemModule, o = mm.out ∧ texts = mm.texts ∧
      ∀ f, .fn f ∈ mm.content → f.parent = "mock_" ++ m.ident := by
  simp only [expandModule, moduleTexts, gen_bind_ok, gen_pure_ok] at h ht
  obtain ⟨a, ha, mm, hm, rfl⟩ := h
  obtain ⟨a', ha', mm', hm', rfl⟩ := ht
  rw [ha] at ha'
  cases ha'
  rw [hm] at hm'
  cases hm'
  refine ⟨mm, rfl, rfl, ?_⟩
  simp only [mockItemModule, gen_bind_ok, gen_pure_ok] at hm
  obtain ⟨r, hr, rfl⟩ := hm
  have hp : a.mockIdent = "mock_" ++ m.ident := by
    unfold mockableModule at ha
    split at ha
    · cases ha
    · simp only [gen_bind_ok, gen_pure_ok] at ha
      obtain ⟨_, -, rfl⟩ := ha
      rfl
  rw [← hp]
  exact content_parent hr

theorem mod_names {m : ItemMod} {mm : MockItemModule} (hp : ∀ f, .fn f ∈ mm.content → f.parent = "mock_" ++ m.ident)
    {f : ModMeth} (hf : .fn f ∈ mm.content) : ModNames m.ident f.meth.name f.meth.innerMod mm.texts :=
  ⟨f.texts, List.mem_flatMap.2 ⟨_, hf, List.mem_singleton.2 rfl⟩, rfl, rfl, by
    rw [← hp f hf]; rfl⟩

theorem strip_mem {c : Config} {l : List ModOut} {x : ModOut} (h : x ∈ c.stripMod l) : ∃ y ∈ l, c.modOut y = some x :=
  List.mem_filterMap.1 h

theorem out_mem {mm : MockItemModule} {y : ModOut} (h : y ∈ mm.out.items) :
    (∃ k s, y = .copied k s) ∨ (∃ f, .fn f ∈ mm.content ∧ (y = f.privMod ∨ y = f.call ∨ y = f.contextFn)) ∨
      y = .checkpoint .pub "checkpoint" (mm.content.flatMap ModContent.stmts) := by
  rcases List.mem_append.1 h with h | h
  · obtain ⟨x, hx, h⟩ := List.mem_flatMap.1 h
    cases x with
    | tokens k s => exact .inl ⟨k, s, List.mem_singleton.1 h⟩
    | fn f =>
      refine .inr (.inl ⟨f, hx, ?_⟩)
      simpa [ModContent.items] using h
  · exact .inr (.inr (List.mem_singleton.1 h))

theorem modCall_origin {m : ItemMod} {mm : MockItemModule}
    (hp : ∀ f, .fn f ∈ mm.content → f.parent = "mock_" ++ m.ident) {c : Config} {n md : Ident}
    (h : HasCall (c.stripMod mm.out.items) n md) : ModNames m.ident n md mm.texts := by
  obtain ⟨a, nm, v, q, s, h, rfl⟩ := h
  obtain ⟨y, hy, h⟩ := strip_mem h
  rcases out_mem hy with ⟨k, t, rfl⟩ | ⟨f, hf, rfl | rfl | rfl⟩ | rfl
  · cases h
  · simp only [ModMeth.privMod, Config.modOut] at h
    split at h <;> cases h
  · unfold ModMeth.call at h
    dsimp only at h
    split at h <;> simp only [Config.modOut] at h <;> split at h <;> cases h
    exact mod_names hp hf
  · simp only [ModMeth.contextFn, Config.modOut] at h
    split at h <;> cases h
  · cases h

theorem modContext_origin {m : ItemMod} {mm : MockItemModule}
    (hp : ∀ f, .fn f ∈ mm.content → f.parent = "mock_" ++ m.ident) {c : Config} {n md : Ident}
    (h : HasContext (c.stripMod mm.out.items) n md) : ∃ x, n = x ++ "_context" ∧ ModNames m.ident x md mm.texts := by
  obtain ⟨a, v, h⟩ := h
  obtain ⟨y, hy, h⟩ := strip_mem h
  rcases out_mem hy with ⟨k, t, rfl⟩ | ⟨f, hf, rfl | rfl | rfl⟩ | rfl
  · cases h
  · simp only [ModMeth.privMod, Config.modOut] at h
    split at h <;> cases h
  · unfold ModMeth.call at h
    dsimp only at h
    split at h <;> simp only [Config.modOut] at h <;> split at h <;> cases h
  · simp only [ModMeth.contextFn, Config.modOut] at h
    split at h <;> cases h
    exact ⟨_, rfl, mod_names hp hf⟩
  · cases h

theorem modCheckpoint_origin {m : ItemMod} {mm : MockItemModule}
    (hp : ∀ f, .fn f ∈ mm.content → f.parent = "mock_" ++ m.ident) {c : Config} {v : Vis} {n : Ident}
    {l : List (WithAttrs Ident)} (h : .checkpoint v n l ∈ c.stripMod mm.out.items) :
    ∀ b ∈ l, ∃ x, HasContext (c.stripMod mm.out.items) (x ++ "_context") b.val ∧ ModNames m.ident x b.val mm.texts := by
  obtain ⟨y, hy, h⟩ := strip_mem h
  rcases out_mem hy with ⟨k, t, rfl⟩ | ⟨f, hf, rfl | rfl | rfl⟩ | rfl
  · cases h
  · simp only [ModMeth.privMod, Config.modOut] at h
    split at h <;> cases h
  · unfold ModMeth.call at h
    dsimp only at h
    split at h <;> simp only [Config.modOut] at h <;> split at h <;> cases h
  · simp only [ModMeth.contextFn, Config.modOut] at h
    split at h <;> cases h
  · simp only [Config.modOut, Option.some.injEq, ModOut.checkpoint.injEq] at h
    obtain ⟨rfl, rfl, rfl⟩ := h
    intro b hb
    obtain ⟨hb, ha⟩ := List.mem_filter.1 hb
    obtain ⟨x, hx, hb⟩ := List.mem_flatMap.1 hb
    cases x with
    | tokens k s => cases hb
    | fn f =>
      cases List.mem_singleton.1 hb
      refine ⟨f.meth.name, ⟨noDoc f.meth.attrs, f.meth.fn.callVis, List.mem_filterMap.2 ⟨f.contextFn, ?_, ?_⟩⟩, mod_names hp hx⟩
      · exact List.mem_append.2 (.inl (List.mem_flatMap.2 ⟨_, hx, by simp [ModContent.items]⟩))
      · simp only [ModMeth.contextFn, Config.modOut]
        exact if_pos ha

/-! ## The code knows its functions throughout -/

/-- Stores and static expectations of all mocks belong to the function of their module. -/
structure PMarked (mocks : List Mock) (info : Nat → List Ident → MethodInfo V) (σ : PState V) : Prop where
  objs : ∀ i items s, mocks[i]? = some (.struct items s) → ∀ (o : Nat) (μ : Fields V),
    (σ.objs i)[o]? = some (some μ) → ∀ p md g, StoreAt items s p md g → (μ p).mi = infoAt (info i) md g
  statics : ∀ i md, (σ.statics i md).mi = info i md

theorem checkpointBlocks_mi (env : Env V) : ∀ (l : List Ident) (σ : GState V) (md : List Ident),
    ((checkpointBlocks env l σ).2.statics md).mi = (σ.statics md).mi
  | [], _, _ => rfl
  | n :: l, σ, md => by
    have hset : ∀ f : StaticFn V, f.mi = (σ.statics [n]).mi → ((σ.setStatic [n] f).statics md).mi = (σ.statics md).mi := by
      intro f hf
      unfold GState.setStatic
      dsimp only
      split
      · next e => rw [hf, e]
      · rfl
    have hc : ((σ.statics [n]).checkpoint env false).2.mi = (σ.statics [n]).mi := by
      unfold StaticFn.checkpoint; split <;> rfl
    unfold checkpointBlocks
    split
    · next h => rw [h] at hc; exact hset _ hc
    · next h =>
      rw [h] at hc
      rw [checkpointBlocks_mi env l, hset _ hc]

theorem module_statics {S : List ModOut} {env : Env V} {σ σ' : GState V} {op : Spec.MOp V} {x : Obs V}
    (h : MStep S env σ op x σ') : σ'.objs = σ.objs ∧ ∀ md, (σ'.statics md).mi = (σ.statics md).mi := by
  have stat : ∀ (md : List Ident) (f : StaticFn V), f.mi = (σ.statics md).mi →
      ∀ md', ((σ.setStatic md f).statics md').mi = (σ.statics md').mi := by
    intro md f hf md'
    unfold GState.setStatic
    dsimp only
    split
    · next e => rw [hf, e]
    · rfl
  cases h with
  | call n k tid args md _ _ r hr =>
    refine ⟨rfl, stat _ _ ?_⟩
    rw [hr]; unfold StaticFn.call; split <;> rfl
  | expect n k bs md _ _ r hr =>
    refine ⟨rfl, stat _ _ ?_⟩
    rw [hr]; unfold StaticFn.expect; split <;> rfl
  | checkpoint n md _ _ r hr =>
    refine ⟨rfl, stat _ _ ?_⟩
    rw [hr]; unfold StaticFn.checkpoint; split <;> rfl
  | drop n b md _ _ r hr =>
    refine ⟨rfl, stat _ _ ?_⟩
    rw [hr]; unfold StaticFn.dropContext StaticFn.checkpoint
    split
    · rfl
    · split <;> rfl
  | checkpointAll v l _ _ r hr =>
    subst hr
    exact ⟨(checkpointBlocks_objs env _ σ).1, checkpointBlocks_mi env _ σ⟩

theorem pmarked_step {mocks : List Mock} {info : Nat → List Ident → MethodInfo V} {env : Env V} {σ σ' : PState V}
    {op : POp V} {x : Obs V} (h : PStep mocks info env σ op x σ') (hm : PMarked mocks info σ) :
    PMarked mocks info σ' := by
  cases h with
  | struct i items s op x τ hu h =>
    have hk := marked_step h ⟨hm.objs i items s hu, hm.statics i⟩
    constructor
    · intro j items' s' hj o μ ho p md g hp
      simp only [PState.put] at ho
      split at ho
      · next e =>
        subst e
        rw [hu] at hj
        cases hj
        exact hk.objs o μ ho p md g hp
      · exact hm.objs j items' s' hj o μ ho p md g hp
    · intro j md
      simp only [PState.put]
      split
      · next e => subst e; exact hk.statics md
      · exact hm.statics j md
  | module i items op x τ hu h =>
    have hk := module_statics h
    constructor
    · intro j items' s' hj o μ ho p md g hp
      simp only [PState.put] at ho
      split at ho
      · next e =>
        subst e
        rw [hu] at hj
        cases hj
      · exact hm.objs j items' s' hj o μ ho p md g hp
    · intro j md
      simp only [PState.put]
      split
      · next e => subst e; exact (hk.2 md).trans (hm.statics _ md)
      · exact hm.statics j md

theorem pmarked_run {mocks : List Mock} {info : Nat → List Ident → MethodInfo V} {env : Env V} {σ τ : PState V}
    {ops : List (POp V)} {xs : List (Obs V)} (h : PRun mocks info env σ ops xs τ) (hm : PMarked mocks info σ) :
    PMarked mocks info τ := by
  induction h with
  | nil => exact hm
  | cons h _ ih => exact ih (pmarked_step h hm)

theorem pinit_marked (mocks : List Mock) (info : Nat → List Ident → MethodInfo V) :
    PMarked mocks info (.init info) := ⟨fun i _ _ _ o μ h => by simp [PState.init] at h, fun _ _ => rfl⟩

/-! ## Programs of the runtime -/

theorem renumber_builds (f g : Nat → Nat) (op : Op V) : (renumber f g op).builds? = op.builds? := by
  cases op <;> rfl

theorem psame_builds {mocks : List Mock} {P : Plan V} {obj stat : Nat → Nat → Nat} {op : POp V} {op' : Op V}
    (h : PSame mocks P obj stat op op') : op'.builds?.getD [] = op.builds := by
  cases h with
  | struct i items s op op' hu h => rw [renumber_builds]; exact same_builds h
  | module i items op op' hu h => rw [renumber_builds]; cases h <;> rfl

theorem psame_buildsOf {mocks : List Mock} {P : Plan V} {obj stat : Nat → Nat → Nat} {ops : List (POp V)}
    {ops' : List (Op V)} (h : Pointwise (PSame mocks P obj stat) ops ops') : buildsOf ops' = allBuilderCalls ops := by
  induction h with
  | nil => rfl
  | cons h _ ih =>
    unfold buildsOf allBuilderCalls at *
    rw [List.flatMap_cons, List.flatMap_cons, ih, psame_builds h]

/-- What the proofs below need to know of a program. -/
structure PMirror (mocks : List Mock) (info : Nat → List Ident → MethodInfo V) (env : Env V) (ops : List (POp V))
    (σ : PState V) where
  P : Plan V
  stat : Nat → Nat → Nat
  obj : Nat → Nat → Nat
  sts : List (MethodInfo V)
  prog : List (Op V)
  lists : P.Lists mocks info stat
  sim : PSim P mocks.length obj stat σ (Sys.run env prog (.init sts)).2
  step : ∀ {op x σ'}, PStep mocks info env σ op x σ' → ∃ op' obj',
    (∀ i o, o < (σ.objs i).length → obj' i o = obj i o) ∧ PSame mocks P obj' stat op op' ∧
    ((Sys.run env prog (.init sts)).2.step env op').1 = x
  short : (logOf env sts prog).length < usizeMax
  tame : ∀ c, ∀ e ∈ (Sys.run env prog (.init sts)).2.target c, Tame (countArg e.chain)
  chain : ∀ c, ∀ e ∈ (Sys.run env prog (.init sts)).2.target c, ∀ b ∈ e.chain, b ∈ allBuilderCalls ops

theorem pmirror {mocks : List Mock} (hv : ∀ mk ∈ mocks, mk.Valid) {info : Nat → List Ident → MethodInfo V}
    {env : Env V} {ops : List (POp V)} {xs : List (Obs V)} {σ : PState V}
    (hr : PRun mocks info env (.init info) ops xs σ) (hm : PModerate ops) :
    Nonempty (PMirror mocks info env ops σ) := by
  obtain ⟨P, stat, hP, H⟩ := plan_exists mocks hv info env
  have h0 : PSim P mocks.length (fun _ _ => 0) stat (.init info)
      (.init (P.statics.map fun x => info x.1 x.2)) := by
    refine ⟨fun i hi => ⟨nofun, fun j a hj => ?_, rfl⟩, ?_⟩
    · simp only [Plan.view, PState.init, List.getElem?_map, Option.map_eq_some_iff] at hj
      obtain ⟨q, hq, rfl⟩ := hj
      simp [Sys.init, hP.stat i j q hi hq]
    · intro i o j o' _ _ ho
      simp [PState.init] at ho
  obtain ⟨ops', obj, -, -, b3, b4, b5⟩ := program_run H (stat_inj hP) hr h0
  have hch : ∀ c, ∀ e ∈ (Sys.run env ops' (.init (P.statics.map fun x => info x.1 x.2))).2.target c, ∀ b ∈ e.chain,
      b ∈ allBuilderCalls ops := fun c e he b hb => by
    rw [← psame_buildsOf b3]
    exact chain_run env _ ops' e (target_all _ c e he) b hb
  refine ⟨⟨P, stat, obj, _, ops', hP, b5, fun hst => ?_, ?_, ?_, hch⟩⟩
  · obtain ⟨op', obj', a1, a2, a3, a4, -⟩ := program_step H (stat_inj hP) b5 hst
    exact ⟨op', obj', a1, a3 obj' fun _ _ _ => rfl, a4⟩
  · refine Nat.lt_of_le_of_lt (log_length env _ ops') ?_
    rw [← (pointwise_at b3).1]
    exact hm.short
  · intro c e he
    rcases lastOf_origin timesOf .rangeFull e.chain with hd | ⟨b, hb, hg⟩
    · unfold countArg; rw [hd]; trivial
    · exact hm.tame b (hch c e he b hb) _ hg

theorem pcall_message {mocks : List Mock} {info : Nat → List Ident → MethodInfo V} {env : Env V}
    {ops : List (POp V)} {σ : PState V} (M : PMirror mocks info env ops σ) {c : Callee} {mi : MethodInfo V}
    {func desc : String} (hi : (Sys.run env M.prog (.init M.sts)).2.infoOf c = some mi)
    (h1 : mi.base.funcname = func) (h2 : mi.base.descname = desc) {tid : Nat} {args : List V}
    {u : V → V} {p : Panic}
    (hp : ((Sys.run env M.prog (.init M.sts)).2.step env (c.op tid args u)).1 = .value (.error p)) :
    CallPanic func desc (allBuilderCalls ops) env tid args p := by
  have := C55_call_partial env M.sts M.prog c mi tid args u p hi M.short (M.tame c) hp
  rw [h1, h2] at this
  rcases this with h | ⟨e, he, b, hb, h⟩ | ⟨h, e, he, b, hb, h'⟩ | h | h | ⟨e, he, why, h⟩
  · exact .inl h
  · exact .inr (.inl ⟨b, M.chain c e he b hb, h⟩)
  · exact .inr (.inr (.inl ⟨h, b, M.chain c e he b hb, h'⟩))
  · exact .inr (.inr (.inr (.inl h)))
  · exact .inr (.inr (.inr (.inr (.inl h))))
  · exact .inr (.inr (.inr (.inr (.inr ⟨e.chain, why, M.chain c e he, h⟩))))

theorem pstat {mocks : List Mock} {info : Nat → List Ident → MethodInfo V} {env : Env V}
    {ops : List (POp V)} {σ : PState V} (M : PMirror mocks info env ops σ) {i j : Nat} {md : List Ident}
    (hi : i < mocks.length) (hj : (M.P.mods i)[j]? = some md) :
    (Sys.run env M.prog (.init M.sts)).2.statics[M.stat i j]? = some (σ.statics i md) :=
  (M.sim.parts i hi).statics j _ (by simp [Plan.view, hj])

theorem pobj {mocks : List Mock} {info : Nat → List Ident → MethodInfo V} {env : Env V}
    {ops : List (POp V)} {σ : PState V} (M : PMirror mocks info env ops σ) {i o : Nat} {a : Option (Fields V)}
    (hi : i < mocks.length) (ho : (σ.objs i)[o]? = some a) :
    (Sys.run env M.prog (.init M.sts)).2.objs[M.obj i o]? = some (a.map fun μ => (M.P.stores i).map μ) :=
  (M.sim.parts i hi).objs o _ (by simp [Plan.view, ho])

theorem pworld {mocks : List Mock} {info : Nat → List Ident → MethodInfo V} {env : Env V}
    {ops : List (POp V)} {σ : PState V} (M : PMirror mocks info env ops σ) {i : Nat} (hi : i < mocks.length) :
    σ.world = (Sys.run env M.prog (.init M.sts)).2.world := (M.sim.parts i hi).world

/-! ## Mock modules -/

/-- **C82, functions of a module.**  If, after any program that uses any number of mocks, a call of the function `n`
of a mock module panics, then, with the exceptions of `CallPanic`, the message begins with the name of the mock
module and the function, or, if it is about an expectation, with the name of the function. -/
theorem C82_module (mocks : List Mock) (hv : ∀ mk ∈ mocks, mk.Valid) (m : ItemMod) (o : OutMod)
    (h : expandModule m = .ok o) (texts : List Texts) (ht : moduleTexts m = .ok texts) (c : Config) (i : Nat)
    (hi : mocks[i]? = some (.module (c.stripMod o.items))) (info : Nat → List Ident → MethodInfo V)
    (hinfo : Prints texts (info i)) (env : Env V) (ops : List (POp V)) (xs : List (Obs V)) (σ : PState V)
    (hm : PModerate ops) (hr : PRun mocks info env (.init info) ops xs σ)
    (n : Ident) (k : Key) (tid : Nat) (args : List V) (p : Panic) (σ' : PState V)
    (hst : PStep mocks info env σ (.module i (.call n k tid args)) (.value (.error p)) σ') :
    CallPanic n ("mock_" ++ m.ident ++ "::" ++ n) (allBuilderCalls ops) env tid args p := by
  obtain ⟨M⟩ := pmirror hv hr hm
  obtain ⟨mm, rfl, rfl, hp⟩ := module_steps h ht
  have hmark := pmarked_run hr (pinit_marked _ _)
  obtain ⟨op', obj', -, hsame, hobs⟩ := M.step hst
  cases hsame with
  | module _ items _ op'' hu hs =>
    rw [hi] at hu
    cases hu
    cases hs with
    | call _ _ _ _ md j hf hj =>
      obtain ⟨e, he, e1, e2, e3⟩ := modCall_origin hp hf
      have hfld : (Sys.run env M.prog (.init M.sts)).2.infoOf (.stat (M.stat i j) k) = some (info i e.module) := by
        simp only [Sys.infoOf, pstat M (getElem?_mem_lt hi) hj, Option.map_some]
        rw [hmark.statics, e1]
      exact pcall_message (u := id) M hfld ((hinfo e he).1.trans e2) ((hinfo e he).2.trans e3) hobs

theorem pverify_static {mocks : List Mock} {info : Nat → List Ident → MethodInfo V} {env : Env V} (hfair : env.Fair)
    {ops : List (POp V)} {σ : PState V} (M : PMirror mocks info env ops σ) (hmark : PMarked mocks info σ) {i j : Nat}
    {md : List Ident} (hi : i < mocks.length) (hj : (M.P.mods i)[j]? = some md) {k : Key} {fi : MethodInfo V}
    (hfi : (Sys.run env M.prog (.init M.sts)).2.infoOf (.stat (M.stat i j) k) = some fi) {e : Expectation V}
    (he : e ∈ (Sys.run env M.prog (.init M.sts)).2.target (.stat (M.stat i j) k)) :
    fi = info i md ∧ e ∈ (σ.statics i md).store.elems env ∧ callsTo env M.sts M.prog e = σ.callsTo e := by
  simp only [Sys.infoOf, Sys.target, pstat M hi hj, Option.map_some, Option.some.injEq] at hfi he
  rw [hmark.statics] at hfi
  refine ⟨hfi.symm, (Store.mem_elems hfair _ _).2 (Store.target_all _ _ e he), ?_⟩
  unfold callsTo PState.callsTo
  rw [pworld M hi]
  rfl

/-- **C82, verification of the functions of a module.**  If a checkpoint or the drop of a `Context` panics then,
unless it is a `PoisonError`, the message begins with the name of the function and is about one of its
expectations. -/
theorem C82_module_verify (mocks : List Mock) (hv : ∀ mk ∈ mocks, mk.Valid) (m : ItemMod) (o : OutMod)
    (h : expandModule m = .ok o) (texts : List Texts) (ht : moduleTexts m = .ok texts) (c : Config) (i : Nat)
    (hi : mocks[i]? = some (.module (c.stripMod o.items))) (info : Nat → List Ident → MethodInfo V)
    (hinfo : Prints texts (info i)) (env : Env V) (hfair : env.Fair) (ops : List (POp V)) (xs : List (Obs V))
    (σ : PState V) (hm : PModerate ops) (hr : PRun mocks info env (.init info) ops xs σ)
    (n : Ident) (op : Spec.MOp V) (hop : op = .checkpoint n ∨ ∃ b, op = .drop n b) (p : Panic) (ab : Bool)
    (σ' : PState V) (hst : PStep mocks info env σ (.module i op) (.unit (.error p) ab) σ') :
    ∃ x md, n = x ++ "_context" ∧ HasContext (c.stripMod o.items) n md ∧
      VerifyPanic x ((σ.statics i [md]).store.elems env) σ.callsTo p := by
  obtain ⟨M⟩ := pmirror hv hr hm
  obtain ⟨mm, rfl, rfl, hp⟩ := module_steps h ht
  have hmark := pmarked_run hr (pinit_marked _ _)
  obtain ⟨op', obj', -, hsame, hobs⟩ := M.step hst
  cases hsame with
  | module _ items _ op'' hu hs =>
    rw [hi] at hu
    cases hu
    have hw : ∃ j md, HasContext (c.stripMod mm.out.items) n md ∧ (M.P.mods i)[j]? = some [md] ∧
        Op.verifying (renumber (obj' i) (M.stat i) op'') = true ∧
        ∀ x, Verifies (renumber (obj' i) (M.stat i) op'') x → ∃ k, x = .stat (M.stat i j) k := by
      rcases hop with rfl | ⟨b, rfl⟩ <;> cases hs <;> refine ⟨_, _, ‹_›, ‹_›, rfl, fun x hx => ?_⟩ <;> cases x with
      | inst o' i k => cases hx
      | stat f k => exact ⟨k, by cases hx; rfl⟩
    obtain ⟨j, md, hf, hj, hv1, hv2⟩ := hw
    obtain ⟨x, rfl, t, ht, e1, e2, -⟩ := modContext_origin hp hf
    refine ⟨x, md, rfl, hf, ?_⟩
    rcases C55_verify_partial env env hfair M.sts M.prog _ p ab M.short M.tame hv1 hobs with h | ⟨y, fi,
      hy, hfi, e, he, hun⟩
    · exact .inl h
    · obtain ⟨k, rfl⟩ := hv2 y hy
      obtain ⟨rfl, k2, k3⟩ := pverify_static hfair M hmark (getElem?_mem_lt hi) hj hfi he
      refine .inr ⟨e, k2, ?_⟩
      rw [← k3, ← e2, ← (hinfo t ht).1, e1]
      exact hun

theorem pointwise_pre {α β : Type} {R : α → β → Prop} {l : List α} {m : List β} (h : Pointwise R l m) :
    ∀ b ∈ m, ∃ a ∈ l, R a b := by
  induction h with
  | nil => nofun
  | cons hr _ ih =>
    intro b hb
    rcases List.mem_cons.1 hb with rfl | hb
    · exact ⟨_, List.mem_cons_self, hr⟩
    · obtain ⟨a, ha, hr⟩ := ih b hb
      exact ⟨a, List.mem_cons_of_mem _ ha, hr⟩

/-- **C82, checkpoint of a module.**  If the function `checkpoint` of a mock module panics then, unless it is a
`PoisonError`, the message begins with the name of a function of the module and is about one of its
expectations. -/
theorem C82_module_checkpoint (mocks : List Mock) (hv : ∀ mk ∈ mocks, mk.Valid) (m : ItemMod) (o : OutMod)
    (h : expandModule m = .ok o) (texts : List Texts) (ht : moduleTexts m = .ok texts) (c : Config) (i : Nat)
    (hi : mocks[i]? = some (.module (c.stripMod o.items))) (info : Nat → List Ident → MethodInfo V)
    (hinfo : Prints texts (info i)) (env : Env V) (hfair : env.Fair) (ops : List (POp V)) (xs : List (Obs V))
    (σ : PState V) (hm : PModerate ops) (hr : PRun mocks info env (.init info) ops xs σ) (p : Panic) (ab : Bool)
    (σ' : PState V) (hst : PStep mocks info env σ (.module i .checkpointAll) (.unit (.error p) ab) σ') :
    p = .poisoned ∨ ∃ x md, HasContext (c.stripMod o.items) (x ++ "_context") md ∧
      VerifyPanic x ((σ.statics i [md]).store.elems env) σ.callsTo p := by
  obtain ⟨M⟩ := pmirror hv hr hm
  obtain ⟨mm, rfl, rfl, hp⟩ := module_steps h ht
  have hmark := pmarked_run hr (pinit_marked _ _)
  obtain ⟨op', obj', -, hsame, hobs⟩ := M.step hst
  cases hsame with
  | module _ items _ op'' hu hs =>
    rw [hi] at hu
    cases hu
    cases hs with
    | checkpointAll v l fs hf hpt =>
      rcases C55_verify_partial env env hfair M.sts M.prog _ p ab M.short M.tame rfl hobs with h | ⟨y, fi,
        hy, hfi, e, he, hun⟩
      · exact .inl h
      · cases y with
        | inst o' a k => cases hy
        | stat f k =>
          obtain ⟨j, hjm, rfl⟩ := List.mem_map.1 (show f ∈ fs.map (M.stat i) from hy)
          obtain ⟨b, hb, hj⟩ := pointwise_pre hpt j hjm
          obtain ⟨x, hx, t, ht, e1, e2, -⟩ := modCheckpoint_origin hp hf b hb
          obtain ⟨rfl, k2, k3⟩ := pverify_static hfair M hmark (getElem?_mem_lt hi) hj hfi he
          refine .inr ⟨x, b.val, hx, .inr ⟨e, k2, ?_⟩⟩
          rw [← k3, ← e2, ← (hinfo t ht).1, e1]
          exact hun

/-! ## Mock structs -/

/-- **C82, methods in programs with several mocks.**  As `C82_call`. -/
theorem C82_program_call (mocks : List Mock) (hv : ∀ mk ∈ mocks, mk.Valid) (hash : List Args → Nat)
    (m : MockableStruct) (items : List Item) (h : expandStruct hash m = .ok items) (texts : List Texts)
    (ht : structTexts hash m = .ok texts) (c : Config) (hs : ∀ a ∈ m.attrs, c.lets a = true)
    (hacc : Accepted (c.strip items)) (i : Nat) (hi : mocks[i]? = some (.struct (c.strip items) m.name))
    (info : Nat → List Ident → MethodInfo V) (hinfo : Prints texts (info i)) (env : Env V) (ops : List (POp V))
    (xs : List (Obs V)) (σ : PState V) (hm : PModerate ops) (hr : PRun mocks info env (.init info) ops xs σ)
    (o : Nat) (t : Option TraitPath) (n : Ident) (k : Key) (tid : Nat) (args : List V) (upd : V → V) (p : Panic)
    (σ' : PState V)
    (hst : PStep mocks info env σ (.struct i (.call o t n k tid args upd)) (.value (.error p)) σ') :
    CallPanic (m.name ++ "::" ++ n) (m.name ++ "::" ++ n) (allBuilderCalls ops) env tid args p := by
  obtain ⟨M⟩ := pmirror hv hr hm
  obtain ⟨mi, e1, ⟨L⟩⟩ := expand_steps h
  obtain ⟨rfl, hn, ha⟩ := texts_of ht e1
  have hmark := pmarked_run hr (pinit_marked _ _)
  have ho : ∃ μ : Fields V, (σ.objs i)[o]? = some (some μ) := by
    cases hst with
    | struct _ items' s' _ _ τ hu hst =>
      generalize Obs.value (.error p) = x at hst
      cases hst
      exact ⟨_, ‹_›⟩
  obtain ⟨μ, ho⟩ := ho
  obtain ⟨op', obj', hobj, hsame, hobs⟩ := M.step hst
  cases hsame with
  | struct _ items' s' _ op'' hu hs' =>
    rw [hi] at hu
    cases hu
    obtain ⟨-, hstores, -⟩ := M.lists.stores i _ _ hi
    cases hs' with
    | call _ _ _ _ _ _ _ q j hf hj =>
      obtain ⟨md, hmd⟩ := (hstores q).1 (List.mem_of_getElem? hj)
      obtain ⟨g, hat⟩ := isStore_storeAt.1 hmd
      obtain ⟨n', k1, e, he, rfl, k2, k3⟩ := storeAt_origin L (ha c hs) hacc (hn ▸ hat)
      have : n' = n := by
        simp only [mockItemStruct, gen_bind_ok, gen_pure_ok] at e1
        obtain ⟨ms, hms, ts, hts, rfl⟩ := e1
        rcases call_origin L (fun x hx => by
            obtain ⟨f, -, hf⟩ := mapM_mem' hms hx
            exact (methOf_ok hf).2.1) (fun u hu x hx => by
            obtain ⟨j, -, hj⟩ := mapM_mem' hts hu
            exact (mockTrait_ok hj).2.2.2.2.1 x hx) hf with ⟨-, rfl⟩ | ⟨u, -, -, -, rfl⟩ <;>
          simpa using k1.symm
      subst this
      have hfld : (Sys.run env M.prog (.init M.sts)).2.infoOf (.inst (obj' i o) j k) =
          some (infoAt (info i) e.module g) := by
        rw [hobj i o (some_lt ho)]
        simp only [Sys.infoOf, pobj M (getElem?_mem_lt hi) ho, List.getElem?_map, Option.map_some, hj]
        rw [hmark.objs i _ _ hi o μ ho q _ g hat]
      rw [hn] at k2 k3
      exact pcall_message M hfld ((hinfo e he).1.trans k2) ((hinfo e he).2.trans k3) hobs

/-- **C82, static methods in programs with several mocks.** -/
theorem C82_program_static (mocks : List Mock) (hv : ∀ mk ∈ mocks, mk.Valid) (hash : List Args → Nat)
    (m : MockableStruct) (items : List Item) (h : expandStruct hash m = .ok items) (texts : List Texts)
    (ht : structTexts hash m = .ok texts) (c : Config) (i : Nat)
    (hi : mocks[i]? = some (.struct (c.strip items) m.name))
    (info : Nat → List Ident → MethodInfo V) (hinfo : Prints texts (info i)) (env : Env V) (ops : List (POp V))
    (xs : List (Obs V)) (σ : PState V) (hm : PModerate ops) (hr : PRun mocks info env (.init info) ops xs σ)
    (t : Option TraitPath) (n : Ident) (k : Key) (tid : Nat) (args : List V) (p : Panic) (σ' : PState V)
    (hst : PStep mocks info env σ (.struct i (.scall t n k tid args)) (.value (.error p)) σ') :
    CallPanic (m.name ++ "::" ++ n) (m.name ++ "::" ++ n) (allBuilderCalls ops) env tid args p := by
  obtain ⟨M⟩ := pmirror hv hr hm
  obtain ⟨mi, e1, ⟨L⟩⟩ := expand_steps h
  obtain ⟨rfl, hn, ha⟩ := texts_of ht e1
  have hmark := pmarked_run hr (pinit_marked _ _)
  obtain ⟨op', obj', -, hsame, hobs⟩ := M.step hst
  cases hsame with
  | struct _ items' s' _ op'' hu hs' =>
    rw [hi] at hu
    cases hu
    cases hs' with
    | scall _ _ _ _ _ md j hf hj =>
      obtain ⟨e, he, rfl, k2, k3⟩ := static_origin L hf
      have hfld : (Sys.run env M.prog (.init M.sts)).2.infoOf (.stat (M.stat i j) k) = some (info i e.module) := by
        simp only [Sys.infoOf, pstat M (getElem?_mem_lt hi) hj, Option.map_some]
        rw [hmark.statics]
      rw [hn] at k2 k3
      exact pcall_message (u := id) M hfld ((hinfo e he).1.trans k2) ((hinfo e he).2.trans k3) hobs

/-- **C82, verification of objects in programs with several mocks.** -/
theorem C82_program_verify (mocks : List Mock) (hv : ∀ mk ∈ mocks, mk.Valid) (hash : List Args → Nat)
    (m : MockableStruct) (items : List Item) (h : expandStruct hash m = .ok items) (texts : List Texts)
    (ht : structTexts hash m = .ok texts) (c : Config) (hs : ∀ a ∈ m.attrs, c.lets a = true)
    (hacc : Accepted (c.strip items)) (i : Nat) (hi : mocks[i]? = some (.struct (c.strip items) m.name))
    (info : Nat → List Ident → MethodInfo V) (hinfo : Prints texts (info i)) (env : Env V) (hfair : env.Fair)
    (ops : List (POp V)) (xs : List (Obs V)) (σ : PState V) (hm : PModerate ops)
    (hr : PRun mocks info env (.init info) ops xs σ) (o : Nat) (op : GOp V)
    (hop : op = .checkpoint o ∨ ∃ b, op = .drop o b) (p : Panic) (ab : Bool) (σ' : PState V)
    (hst : PStep mocks info env σ (.struct i op) (.unit (.error p) ab) σ') :
    p = .poisoned ∨ ∃ μ q md n, (σ.objs i)[o]? = some (some μ) ∧ IsStore (c.strip items) m.name q md ∧
      q.getLast? = some n ∧ VerifyPanic (m.name ++ "::" ++ n) ((μ q).store.elems env) σ.callsTo p := by
  obtain ⟨M⟩ := pmirror hv hr hm
  obtain ⟨mi, e1, ⟨L⟩⟩ := expand_steps h
  obtain ⟨rfl, hn, ha⟩ := texts_of ht e1
  have hmark := pmarked_run hr (pinit_marked _ _)
  have ho : ∃ μ : Fields V, (σ.objs i)[o]? = some (some μ) := by
    cases hst with
    | struct _ items' s' _ _ τ hu hst =>
      rcases hop with rfl | ⟨b, rfl⟩ <;> generalize Obs.unit (.error p) ab = x at hst <;> cases hst <;>
        exact ⟨_, ‹_›⟩
  obtain ⟨μ, ho⟩ := ho
  obtain ⟨op', obj', hobj, hsame, hobs⟩ := M.step hst
  cases hsame with
  | struct _ items' s' _ op'' hu hs' =>
    rw [hi] at hu
    cases hu
    obtain ⟨-, hstores, -⟩ := M.lists.stores i _ _ hi
    have hw : Op.verifying (renumber (obj' i) (M.stat i) op'') = true ∧
        ∀ x, Verifies (renumber (obj' i) (M.stat i) op'') x → ∃ j k, x = .inst (M.obj i o) j k := by
      rcases hop with rfl | ⟨b, rfl⟩ <;> cases hs' <;> refine ⟨rfl, fun x hx => ?_⟩ <;> cases x with
      | inst o' j k => exact ⟨j, k, by rw [← hobj i o (some_lt ho)]; cases hx; rfl⟩
      | stat f k => cases hx
    rcases C55_verify_partial env env hfair M.sts M.prog _ p ab M.short M.tame hw.1 hobs with h | ⟨y, fi,
      hy, hfi, e, he, hun⟩
    · exact .inl h
    · obtain ⟨j, k, rfl⟩ := hw.2 y hy
      simp only [Sys.infoOf, Sys.target, pobj M (getElem?_mem_lt hi) ho, List.getElem?_map, Option.map_some] at hfi he
      rcases hj : (M.P.stores i)[j]? with _ | q
      · simp [hj] at hfi
      · simp only [hj, Option.map_some, Option.some.injEq] at hfi he
        obtain ⟨md, hmd⟩ := (hstores q).1 (List.mem_of_getElem? hj)
        obtain ⟨g, hat⟩ := isStore_storeAt.1 hmd
        obtain ⟨n, k1, t, ht, rfl, k2, -⟩ := storeAt_origin L (ha c hs) hacc (hn ▸ hat)
        rw [hmark.objs i _ _ hi o μ ho q _ g hat] at hfi
        subst hfi
        refine .inr ⟨μ, q, _, n, ho, hmd, k1, .inr ⟨e, ?_, ?_⟩⟩
        · exact (Store.mem_elems hfair _ _).2 (Store.target_all _ _ e he)
        · rw [← hn, ← k2, ← (hinfo t ht).1]
          unfold callsTo at hun
          unfold PState.callsTo
          rw [pworld M (getElem?_mem_lt hi)]
          exact hun

/-- **C82, verification of static methods in programs with several mocks.** -/
theorem C82_program_verify_static (mocks : List Mock) (hv : ∀ mk ∈ mocks, mk.Valid) (hash : List Args → Nat)
    (m : MockableStruct) (items : List Item) (h : expandStruct hash m = .ok items) (texts : List Texts)
    (ht : structTexts hash m = .ok texts) (c : Config) (i : Nat)
    (hi : mocks[i]? = some (.struct (c.strip items) m.name))
    (info : Nat → List Ident → MethodInfo V) (hinfo : Prints texts (info i)) (env : Env V) (hfair : env.Fair)
    (ops : List (POp V)) (xs : List (Obs V)) (σ : PState V) (hm : PModerate ops)
    (hr : PRun mocks info env (.init info) ops xs σ) (n : Ident) (op : GOp V)
    (hop : op = .scheckpoint n ∨ ∃ b, op = .sdrop n b) (p : Panic) (ab : Bool) (σ' : PState V)
    (hst : PStep mocks info env σ (.struct i op) (.unit (.error p) ab) σ') :
    ∃ x md, n = x ++ "_context" ∧ HasFn (c.strip items) m.name none n (.context md) ∧
      VerifyPanic (m.name ++ "::" ++ x) ((σ.statics i md).store.elems env) σ.callsTo p := by
  obtain ⟨M⟩ := pmirror hv hr hm
  obtain ⟨mi, e1, ⟨L⟩⟩ := expand_steps h
  obtain ⟨rfl, hn, ha⟩ := texts_of ht e1
  have hmark := pmarked_run hr (pinit_marked _ _)
  obtain ⟨op', obj', -, hsame, hobs⟩ := M.step hst
  cases hsame with
  | struct _ items' s' _ op'' hu hs' =>
    rw [hi] at hu
    cases hu
    have hw : ∃ j md, HasFn (c.strip items) m.name none n (.context md) ∧ (M.P.mods i)[j]? = some md ∧
        Op.verifying (renumber (obj' i) (M.stat i) op'') = true ∧
        ∀ x, Verifies (renumber (obj' i) (M.stat i) op'') x → ∃ k, x = .stat (M.stat i j) k := by
      rcases hop with rfl | ⟨b, rfl⟩ <;> cases hs' <;> refine ⟨_, _, ‹_›, ‹_›, rfl, fun x hx => ?_⟩ <;> cases x with
      | inst o' i k => cases hx
      | stat f k => exact ⟨k, by cases hx; rfl⟩
    obtain ⟨j, md, hf, hj, hv1, hv2⟩ := hw
    obtain ⟨x, rfl, t, ht, rfl, k2, -⟩ := context_origin L hf
    refine ⟨x, _, rfl, hf, ?_⟩
    rcases C55_verify_partial env env hfair M.sts M.prog _ p ab M.short M.tame hv1 hobs with h | ⟨y, fi,
      hy, hfi, e, he, hun⟩
    · exact .inl h
    · obtain ⟨k, rfl⟩ := hv2 y hy
      obtain ⟨rfl, k4, k5⟩ := pverify_static hfair M hmark (getElem?_mem_lt hi) hj hfi he
      refine .inr ⟨e, k4, ?_⟩
      rw [← k5, ← hn, ← k2, ← (hinfo t ht).1]
      exact hun

/-! ## Example -/

/-- `g_context().expect().times(1)`. -/
def exExpect : POp Nat := .module 0 (.expect "g_context" 0 [.times (.n 1)])

/-- The mock of the module of C62: after `exExpect`, a call of `h` without expectation, and a checkpoint that comes
too early. -/
theorem C82_module_inhabited (env : Env Nat) : ∃ o texts, expandModule exModule = .ok o ∧
    moduleTexts exModule = .ok texts ∧ (∀ mk ∈ [Mock.module (everywhere.stripMod o.items)], mk.Valid) ∧
    Prints texts (exInfo texts) ∧ PModerate [exExpect] ∧
    ∃ xs σ, PRun [.module (everywhere.stripMod o.items)] (fun _ => exInfo texts) env (.init fun _ => exInfo texts)
        [exExpect] xs σ ∧
      (∃ p σ', PStep [.module (everywhere.stripMod o.items)] (fun _ => exInfo texts) env σ (.module 0 (.call "h" 0 0 [7]))
          (.value (.error p)) σ' ∧
        p.render = "mock_m::h(" ++ env.dbg 7 ++ "): No matching expectation found") ∧
      ∃ p σ', PStep [.module (everywhere.stripMod o.items)] (fun _ => exInfo texts) env σ (.module 0 .checkpointAll)
          (.unit (.error p) false) σ' ∧
        p.render = "g: Expectation(<anything>) called 0 time(s) which is fewer than expected 1" := by
  have hm : (expandModule exModule).toOption.map (fun o =>
      (decide (modules (everywhere.stripMod o.items) = ["__f", "__g", "__h"]),
        (mockCalls (everywhere.stripMod o.items)).any (fun x => x.1.sig.ident = "h" ∧ x.2 = "__h"),
        (contexts (everywhere.stripMod o.items)).any (fun x => x.1 = "g_context" ∧ x.2.2 = "__g"),
        decide ((checkpointFns (everywhere.stripMod o.items)) = [("checkpoint", .pub, ["__f", "__g", "__h"])]))) =
    some (true, true, true, true) := by decide +kernel
  have ht : (moduleTexts exModule).toOption.map (fun l =>
      (l.all (fun e => (exInfo l e.module).base.funcname = e.func ∧ (exInfo l e.module).base.descname = e.desc),
        decide (l.find? (·.module = ["__g"]) = some ⟨["__g"], "g", "mock_m::g"⟩),
        decide (l.find? (·.module = ["__h"]) = some ⟨["__h"], "h", "mock_m::h"⟩))) =
      some (true, true, true) := by decide +kernel
  cases ho : expandModule exModule with
  | error e => rw [ho] at hm; cases hm
  | ok o =>
  cases hx : moduleTexts exModule with
  | error e => rw [hx] at ht; cases ht
  | ok texts =>
    rw [ho] at hm
    rw [hx] at ht
    simp only [Except.toOption, Option.map_some, Option.some.injEq, Prod.mk.injEq, decide_eq_true_eq] at hm ht
    obtain ⟨m1, m2, m3, m4⟩ := hm
    obtain ⟨t1, t2, t3⟩ := ht
    have hg : exInfo texts ["__g"] = ⟨false, ⟨.static, "g", "mock_m::g", none⟩, fun _ => none⟩ := by
      unfold exInfo; rw [t2]; rfl
    have hh : exInfo texts ["__h"] = ⟨false, ⟨.static, "h", "mock_m::h", none⟩, fun _ => none⟩ := by
      unfold exInfo; rw [t3]; rfl
    refine ⟨o, texts, rfl, rfl, ?_, fun e he => by simpa using List.all_eq_true.1 t1 e he, ⟨by decide, ?_⟩, ?_⟩
    · intro mk hk
      rw [List.mem_singleton.1 hk]
      exact .module exModule o everywhere ho (by rw [m1]; decide)
    · intro b hb a ha
      cases List.mem_singleton.1 hb
      cases ha
      trivial
    · obtain ⟨⟨cf, cm⟩, c1, c2⟩ := List.any_eq_true.1 m2
      obtain ⟨⟨xn, xv, xm⟩, c3, c4⟩ := List.any_eq_true.1 m3
      simp only [Bool.decide_and, Bool.and_eq_true, decide_eq_true_eq] at c2 c4
      obtain ⟨c2, rfl⟩ := c2
      obtain ⟨rfl, rfl⟩ := c4
      obtain ⟨l, l1, l2⟩ := mem_checkpoints.1 (show ("checkpoint", Vis.pub, ["__f", "__g", "__h"]) ∈
        checkpointFns (everywhere.stripMod o.items) by rw [m4]; exact List.mem_singleton.2 rfl)
      have h1 := MStep.expect (env := env) ((PState.init fun _ => exInfo texts).part 0) "g_context" 0
        [.times (.n 1)] "__g" (mem_contexts.2 ⟨_, c3⟩) (by rw [m1]; decide) _ rfl
      have p1 := PStep.module (mocks := [.module (everywhere.stripMod o.items)]) (info := fun _ => exInfo texts) _ 0 _ _ _ _ rfl h1
      generalize hσ : (PState.init fun _ => exInfo texts).put 0 _ = σ at p1
      have s1 : σ.statics 0 ["__f"] = .new (exInfo texts ["__f"]) := by subst hσ; rfl
      have s2 : σ.statics 0 ["__g"] = (StaticFn.expect env.nightly 0 [.times (.n 1)]
        (.new (exInfo texts ["__g"])) (PState.init fun _ => exInfo texts).world).2.1 := by subst hσ; rfl
      have s3 : σ.statics 0 ["__h"] = .new (exInfo texts ["__h"]) := by subst hσ; rfl
      refine ⟨_, σ, .cons p1 (.nil _), ?_, ?_⟩
      · have h2 := MStep.call (env := env) (σ.part 0) "h" 0 0 [7] "__h" (mem_mockCalls.2 ⟨_, c1, c2⟩)
          (by rw [m1]; decide) _ rfl
        have p2 := PStep.module (mocks := [.module (everywhere.stripMod o.items)]) (info := fun _ => exInfo texts) _ 0 _ _ _ _ rfl h2
        simp only [PState.part, s3, hh] at p2
        refine ⟨_, _, p2, ?_⟩
        simp only [Panic.render, callDesc, List.map_cons, List.map_nil]
        have : ", ".intercalate [env.dbg 7] = env.dbg 7 := by simp [String.intercalate_singleton]
        rw [this]
        rw [show "mock_m::h(" = "mock_m::h" ++ "(" by decide +kernel,
          show "): No matching expectation found" = ")" ++ ": No matching expectation found" by decide +kernel]
        simp only [String.append_assoc]
        rfl
      · have h2 := MStep.checkpointAll (env := env) (σ.part 0) .pub l l1
          (fun b hb => by rw [m1, ← l2]; exact List.mem_map.2 ⟨b, hb, rfl⟩) _ rfl
        rw [l2] at h2
        have p2 := PStep.module (mocks := [.module (everywhere.stripMod o.items)]) (info := fun _ => exInfo texts) _ 0 _ _ _ _ rfl h2
        have f1 : (σ.statics 0 ["__f"]).checkpoint env false =
          ((.ok (), false), .new (exInfo texts ["__f"])) := by rw [s1]; rfl
        have f2 : ((σ.statics 0 ["__g"]).checkpoint env false).1 = (.error (.tooFewAtDrop "g" "<anything>" 0 1), false) := by
          rw [s2, hg]; rfl
        have f3 : (checkpointBlocks env ["__f", "__g", "__h"] (σ.part 0)).1 =
            (.error (.tooFewAtDrop "g" "<anything>" 0 1), false) := by
          have f4 : ((σ.part 0).setStatic ["__f"] (.new (exInfo texts ["__f"]))).statics ["__g"] =
            σ.statics 0 ["__g"] := rfl
          rw [checkpointBlocks, show (σ.part 0).statics ["__f"] = σ.statics 0 ["__f"] from rfl, f1]
          simp only
          rw [checkpointBlocks, f4]
          rcases hr : (σ.statics 0 ["__g"]).checkpoint env false with ⟨r, f⟩
          rw [hr] at f2
          simp only at f2
          subst f2
          rfl
        rw [f3] at p2
        refine ⟨_, _, p2, ?_⟩
        decide +kernel

end Mockall.Props
