import Verif.Spec.Module
import Verif.Props.DeriveStruct
import Verif.Props.DeriveAttrs
import Verif.Props.DeriveConcretize

/-! # C62, C63: mocked modules -/

namespace Mockall.Props

open Derive Spec

/-! ## Functions -/

theorem active_plain (c : Config) (f : AttrFormatter) {l : List Attr} (h : c.Plain l) :
    c.active (f.format l) = c.active l := by
  simp only [Config.active, AttrFormatter.format]
  rw [Bool.eq_iff_iff, List.all_eq_true, List.all_eq_true]
  constructor
  · intro k a ha
    cases hl : c.lets a with
    | true => rfl
    | false =>
      rw [← hl]
      refine k a (List.mem_filter.2 ⟨ha, ?_⟩)
      obtain ⟨hp, hn⟩ := h a ha hl
      have hc : isConcretize a = false := by
        cases hc : isConcretize a with
        | false => rfl
        | true => exact absurd ((isConcretize_iff a hp).1 hc) hn
      rcases c.only a hl with ⟨args, rfl⟩ | ⟨p, as, rfl⟩
      · simp [AttrFormatter.keep, isConcretize, Attr.last]
      · simp [AttrFormatter.keep, hc, Attr.last]
  · exact fun k a ha => k a (List.mem_filter.1 ha).1

theorem sameArg_trans {a b d : FnArg} (h : SameArg a b) (k : SameArg b d) : SameArg a d := by
  cases h; cases k; exact .mk ..

theorem same_trans : ∀ {l m n : List FnArg}, Pointwise SameArg l m → Pointwise SameArg m n →
    Pointwise SameArg l n
  | _, _, _, .nil, .nil => .nil
  | _, _, _, .cons h hs, .cons k ks => .cons (sameArg_trans h k) (same_trans hs ks)

/-- What `demutify` does to functions without receivers. -/
theorem demutify_same : ∀ {l l' : List FnArg}, ¬ IsMethod l → demutify l = .ok l' → Pointwise SameArg l l'
  | [], l', _, h => by simp only [demutify, gen_pure_ok] at h; subst h; exact .nil
  | .receiver r m c t :: l, l', hm, h => absurd ⟨r, m, c, t, List.mem_cons_self⟩ hm
  | .typed a p t :: l, l', hm, h => by
    simp only [demutify, gen_bind_ok, gen_pure_ok] at h
    obtain ⟨p', hp, r, hr, rfl⟩ := h
    have := demutifyPat_ok hp
    cases this
    exact .cons (.mk ..) (demutify_same (fun ⟨r, m, c, t, k⟩ => hm ⟨r, m, c, t, List.mem_cons_of_mem _ k⟩) hr)

theorem demutify_static : ∀ {l l' : List FnArg}, demutify l = .ok l' → (IsMethod l' ↔ IsMethod l)
  | [], l', h => by simp only [demutify, gen_pure_ok] at h; subst h; rfl
  | .receiver r m c t :: l, l', h => by
    simp only [demutify, gen_bind_ok, gen_pure_ok] at h
    obtain ⟨r', hr, rfl⟩ := h
    exact ⟨fun _ => ⟨_, _, _, _, List.mem_cons_self⟩, fun _ => ⟨_, _, _, _, List.mem_cons_self⟩⟩
  | .typed a p t :: l, l', h => by
    simp only [demutify, gen_bind_ok, gen_pure_ok] at h
    obtain ⟨p', hp, r, hr, rfl⟩ := h
    simpa [IsMethod] using demutify_static hr

theorem needsPin_iff (b : Bound) : needsPin b = true ↔ PinnedTrait b := by
  cases b with
  | lt l => simp [needsPin, PinnedTrait]
  | other s => simp [needsPin, PinnedTrait]
  | «trait» m ls lead segs =>
    rcases List.eq_nil_or_concat segs with rfl | ⟨init, s, rfl⟩
    · simp [needsPin, PinnedTrait]
    · cases s with
      | mk id args =>
        simp only [needsPin, List.concat_eq_append, List.getLast?_append, List.getLast?_singleton,
          Option.some_or, Seg.id, PinnedTrait, Bound.trait.injEq]
        constructor
        · intro h
          refine ⟨m, ls, lead, init, id, args, ⟨rfl, rfl, rfl, rfl⟩, by
            rcases Bool.or_eq_true_iff.1 h with h | h
            · exact .inl (of_decide_eq_true h)
            · exact .inr (of_decide_eq_true h)⟩
        · rintro ⟨_, _, _, init', id', args', ⟨-, -, -, e⟩, h⟩
          have := List.append_inj' e rfl
          simp only [List.cons.injEq, Seg.mk.injEq, and_true] at this
          obtain ⟨-, rfl, rfl⟩ := this
          rcases h with rfl | rfl <;> rfl

/-- What `deimplify` does to a return type. -/
theorem deimplify_returns (r : Ret) : Returns r (deimplify r) := by
  by_cases h : ∃ bs, r = .ty (.implTrait bs)
  · obtain ⟨bs, rfl⟩ := h
    rw [deimplify]
    split
    · rename_i h
      obtain ⟨b, hb, h⟩ := List.any_eq_true.1 h
      exact .pinned bs ⟨b, hb, (needsPin_iff b).1 h⟩
    · rename_i h
      exact .boxed bs fun b hb k => h (List.any_eq_true.2 ⟨b, hb, (needsPin_iff b).2 k⟩)
  · have e : deimplify r = r := by
      rw [deimplify.eq_def]
      split
      · rename_i bs; exact absurd ⟨bs, rfl⟩ h
      · rfl
    rw [e]
    exact .same r fun bs k => h ⟨bs, k⟩

theorem pointwise_same_refl : ∀ {l : List FnArg}, (∀ a ∈ l, PlainArg a) → ¬ IsMethod l → Pointwise SameArg l l
  | [], _, _ => .nil
  | .receiver r m c t :: l, _, hm => absurd ⟨r, m, c, t, List.mem_cons_self⟩ hm
  | .typed a p t :: l, h, hm => by
    obtain ⟨m, i, rfl⟩ := h _ List.mem_cons_self
    exact .cons (.mk ..) (pointwise_same_refl (fun a ha => h a (List.mem_cons_of_mem _ ha))
      (fun ⟨r, m, c, t, k⟩ => hm ⟨r, m, c, t, List.mem_cons_of_mem _ k⟩))

theorem concretizeSigArg_same {hm : ConcreteMap} : ∀ {l l' : List FnArg}, (∀ a ∈ l, PlainArg a) →
    ¬ IsMethod l → l.mapM (concretizeSigArg hm) = .ok l' → Pointwise SameArg l l'
  | [], l', _, _, h => by simp only [List.mapM_nil, gen_pure_ok] at h; subst h; exact .nil
  | .receiver r m c t :: l, _, _, hm, _ => absurd ⟨r, m, c, t, List.mem_cons_self⟩ hm
  | .typed a p t :: l, l', hp, hm, h => by
    simp only [List.mapM_cons, gen_bind_ok, gen_pure_ok] at h
    obtain ⟨x, hx, r, hr, rfl⟩ := h
    obtain ⟨m, i, rfl⟩ := hp _ List.mem_cons_self
    refine .cons ?_ (concretizeSigArg_same (fun a ha => hp a (List.mem_cons_of_mem _ ha))
      (fun ⟨r, m, c, t, k⟩ => hm ⟨r, m, c, t, List.mem_cons_of_mem _ k⟩) hr)
    rw [concretizeSigArg.eq_def] at hx
    dsimp only at hx
    split at hx
    · simp only [gen_pure_ok] at hx; subst hx; exact .mk ..
    · simp only [gen_pure_ok] at hx; subst hx; exact .mk ..

/-- The signature of the function that is emitted. -/
theorem prepare_sig {b : Builder} {g : Generics} {i : List FnArg} {ce : List CallArg} {s : Sig}
    (h : prepare b = .ok (g, i, ce, s)) (hm : ¬ IsMethod b.sig.inputs) :
    s.ident = b.sig.ident ∧ s.generics = b.sig.generics ∧ s.output = b.sig.output ∧
      Pointwise SameArg b.sig.inputs s.inputs := by
  unfold prepare at h
  split at h
  · have hpl := ((C61_total b.sig).1 (by
      rename_i hc
      exact ⟨_, h⟩)).2
    simp only [concretizeArgs, gen_bind_ok, gen_pure_ok, Prod.mk.injEq] at h
    obtain ⟨_, -, hm', -, _, -, _, -, inputs, hi, -, -, -, rfl⟩ := h
    exact ⟨rfl, rfl, rfl, concretizeSigArg_same hpl hm hi⟩
  · simp only [gen_bind_ok, gen_pure_ok, Prod.mk.injEq] at h
    obtain ⟨⟨x, y, z⟩, h, -, -, -, rfl⟩ := h
    refine ⟨rfl, rfl, rfl, pointwise_same_refl ?_ hm⟩
    simp only [declosurefy, gen_bind_ok, gen_pure_ok] at h
    obtain ⟨_, -, hm', -, o, ho, _, -, -⟩ := h
    intro a ha
    obtain ⟨b', hb, e⟩ := mapM_mem ho ha
    cases a with
    | receiver => trivial
    | typed as p t =>
      simp only [declosureArg, gen_bind_ok] at e
      obtain ⟨p', hp, -⟩ := e
      exact (demutifyPat_succeeds p).1 ⟨p', hp⟩


theorem modMeth_ok {parent : Ident} {f : ModFn} {m : ModMeth} (h : modMeth parent f = .ok m)
    (hm : ¬ IsMethod f.sig.inputs) :
    m.meth.attrs = f.attrs ∧ m.qual = f.qual ∧ m.meth.isStatic = true ∧ m.meth.fn.callVis = f.vis ∧
    m.meth.fn.sig.ident = f.sig.ident ∧ m.meth.fn.sig.generics = f.sig.generics ∧
    m.meth.fn.sig.output = f.sig.output ∧ Pointwise SameArg f.sig.inputs m.meth.fn.sig.inputs := by
  simp only [modMeth, gen_bind_ok, gen_pure_ok] at h
  obtain ⟨fn, hf, rfl⟩ := h
  obtain ⟨s⟩ := build_steps hf
  obtain ⟨h1, h2, h3, h4⟩ := prepare_sig s.prep hm
  refine ⟨rfl, rfl, (C59_kind _ fn hf).2.2.2.2.1.2 hm, ?_, h1, h2, h3, h4⟩
  rw [s.cvis]
  simp [expectationVisibility]

/-! ## Content -/

/-- The functions that are compiled. -/
def liveFns (c : Config) (cs : List ModContent) : List ModMeth :=
  cs.filterMap fun | .fn m => if c.active m.meth.attrs then some m else none | _ => none

/-- A function as its callers see it. -/
def ModMeth.view (m : ModMeth) : Callable := ⟨m.meth.fn.callVis, m.qual, m.meth.fn.sig⟩

/-- What is known of the functions. -/
def Good (c : Config) (cs : List ModContent) : Prop :=
  ∀ m, .fn m ∈ cs → m.meth.isStatic = true ∧ c.Plain m.meth.attrs

theorem fn_items (c : Config) {m : ModMeth} (hs : m.meth.isStatic = true) (hp : c.Plain m.meth.attrs) :
    c.stripMod (ModContent.fn m).items = if c.active m.meth.attrs then
      [m.privMod, m.call, m.contextFn] else [] := by
  have h : ∀ f : AttrFormatter, c.active (f.format m.meth.attrs) = c.active m.meth.attrs :=
    fun f => active_plain c f hp
  simp only [Config.stripMod, ModContent.items, ModMeth.privMod, ModMeth.call, ModMeth.contextFn, hs, if_true,
    List.filterMap_cons, Config.modOut, noDoc, h]
  cases c.active m.meth.attrs <;> simp

theorem strip_cons (c : Config) (x : ModContent) (cs : List ModContent) :
    c.stripMod ((x :: cs).flatMap ModContent.items) =
      c.stripMod x.items ++ c.stripMod (cs.flatMap ModContent.items) := by
  simp [Config.stripMod, List.filterMap_append]

theorem good_tail {c : Config} {x : ModContent} {cs : List ModContent} (h : Good c (x :: cs)) : Good c cs :=
  fun m hm => h m (List.mem_cons_of_mem _ hm)

/-- A view of the code that is compiled, given what it shows of each item. -/
theorem view_content {β : Type} (c : Config) (v : ModOut → Option β) (g : ModMeth → List β)
    (k : CopyKind → String → List β)
    (hg : ∀ m, m.meth.isStatic = true → [m.privMod, m.call, m.contextFn].filterMap v = g m)
    (hk : ∀ a s, [ModOut.copied a s].filterMap v = k a s) :
    ∀ {cs : List ModContent}, Good c cs →
      (c.stripMod (cs.flatMap ModContent.items)).filterMap v =
        cs.flatMap fun | .fn m => if c.active m.meth.attrs then g m else [] | .tokens a s => k a s
  | [], _ => rfl
  | .tokens a s :: cs, h => by
    rw [strip_cons, List.filterMap_append, view_content c v g k hg hk (good_tail h), List.flatMap_cons]
    congr 1
    exact hk a s
  | .fn m :: cs, h => by
    obtain ⟨hs, hp⟩ := h m List.mem_cons_self
    rw [strip_cons, List.filterMap_append, view_content c v g k hg hk (good_tail h), List.flatMap_cons,
      fn_items c hs hp]
    congr 1
    dsimp only
    split
    · exact hg m hs
    · rfl

theorem live_map {β : Type} (c : Config) (g : ModMeth → β) (cs : List ModContent) :
    (cs.flatMap fun | .fn m => if c.active m.meth.attrs then [g m] else [] | .tokens _ _ => []) =
      (liveFns c cs).map g := by
  induction cs with
  | nil => rfl
  | cons x cs ih =>
    rw [List.flatMap_cons, ih]
    cases x with
    | tokens a s => rfl
    | fn m =>
      simp only [liveFns, List.filterMap_cons]
      split <;> simp_all


theorem live_fn (c : Config) (m : ModMeth) (cs : List ModContent) :
    liveFns c (.fn m :: cs) = (if c.active m.meth.attrs then [m] else []) ++ liveFns c cs := by
  rw [liveFns, List.filterMap_cons]
  dsimp only
  cases h : c.active m.meth.attrs <;> simp [liveFns]

theorem live_append (c : Config) (a b : List ModContent) : liveFns c (a ++ b) = liveFns c a ++ liveFns c b :=
  List.filterMap_append

theorem pointwise_append {α β : Type} {R : α → β → Prop} : ∀ {l m : List α} {l' m' : List β},
    Pointwise R l l' → Pointwise R m m' → Pointwise R (l ++ m) (l' ++ m')
  | _, _, _, _, .nil, k => k
  | _, _, _, _, .cons h hs, k => .cons h (pointwise_append hs k)

theorem good_cons {c : Config} {m : ModMeth} {cs : List ModContent} (hs : m.meth.isStatic = true)
    (hp : c.Plain m.meth.attrs) (h : Good c cs) : Good c (.fn m :: cs) := by
  intro m' hm'
  rcases List.mem_cons.1 hm' with e | hm'
  · cases e
    exact ⟨hs, hp⟩
  · exact h m' hm'

/-- The items that are copied. -/
def tokensOf (cs : List ModContent) : List (CopyKind × String) :=
  cs.filterMap fun | .tokens k s => some (k, s) | _ => none

theorem foreign_content {parent : Ident} {abi : Option String} (c : Config) :
    ∀ {items : List ForeignItem} {cs : List ModContent}, foreignContent parent abi items = .ok cs →
      (∀ f, .fn f ∈ items → ¬ IsMethod f.sig.inputs) →
      (∀ f, .fn f ∈ items → ∀ bs, f.sig.output ≠ .ty (.implTrait bs)) →
      (∀ f, .fn f ∈ items → c.Plain f.attrs) →
      Good c cs ∧ Pointwise Replaces (c.foreignFns abi items) ((liveFns c cs).map ModMeth.view) ∧
        tokensOf cs = []
  | [], cs, h, _, _, _ => by
    simp only [foreignContent, gen_pure_ok] at h
    subst h
    exact ⟨fun m hm => (by cases hm), .nil, rfl⟩
  | .other s :: l, cs, h, _, _, _ => by simp [foreignContent] at h
  | .fn f :: l, cs, h, hs, hi, hp => by
    simp only [foreignContent, gen_bind_ok, gen_pure_ok] at h
    obtain ⟨m, hm, r, hr, rfl⟩ := h
    obtain ⟨i1, i2, i3⟩ := foreign_content c hr (fun f hf => hs f (List.mem_cons_of_mem _ hf))
      (fun f hf => hi f (List.mem_cons_of_mem _ hf)) (fun f hf => hp f (List.mem_cons_of_mem _ hf))
    have hf := hs f List.mem_cons_self
    obtain ⟨e1, e2, e3, e4, e5, e6, e7, e8⟩ := modMeth_ok hm hf
    have e1 : m.meth.attrs = f.attrs := e1
    refine ⟨good_cons e3 (by rw [e1]; exact hp f List.mem_cons_self) i1, ?_, i3⟩
    rw [Config.foreignFns, live_fn, e1, List.map_append]
    refine pointwise_append ?_ i2
    split
    · refine .cons ?_ .nil
      refine ⟨e4, ?_, ?_, ?_, ?_, e5, e6, e8, ?_⟩
      · rw [ModMeth.view, e2]; rfl
      · rw [ModMeth.view, e2]; rfl
      · rw [ModMeth.view, e2]; rfl
      · rw [ModMeth.view, e2]
        simp only [foreignFn]
        split
        · rename_i h; subst h; exact .unwind
        · exact .same _
      · rw [ModMeth.view, e7]
        exact .same _ (hi f List.mem_cons_self)
    · exact .nil

theorem mod_content {parent : Ident} (c : Config) :
    ∀ {l l' : List ModItem} {cs : List ModContent}, l.mapM mockableItem = .ok l' →
      modContent parent l' = .ok cs → ValidModule l → (∀ f, Writes l f → c.Plain f.attrs) → c.Blocks l →
      Good c cs ∧ Pointwise Replaces (c.functions l) ((liveFns c cs).map ModMeth.view) ∧
        tokensOf cs = copies l
  | [], l', cs, h, k, _, _, _ => by
    simp only [List.mapM_nil, gen_pure_ok] at h
    subst h
    simp only [modContent, gen_pure_ok] at k
    subst k
    exact ⟨fun m hm => (by cases hm), .nil, rfl⟩
  | x :: l, l', cs, h, k, hv, hp, hb => by
    simp only [List.mapM_cons, gen_bind_ok, gen_pure_ok] at h
    obtain ⟨x', hx, l', hl, rfl⟩ := h
    have hw : ∀ f, Writes l f → Writes (x :: l) f := by
      intro f h
      cases h with
      | fn _ h => exact .fn _ (List.mem_cons_of_mem _ h)
      | foreign a abi items _ h hf => exact .foreign a abi items _ (List.mem_cons_of_mem _ h) hf
    have hv' : ValidModule l := ⟨fun f hf => hv.noSelf f (hw f hf),
      fun a abi items f h hf => hv.noImpl a abi items f (List.mem_cons_of_mem _ h) hf⟩
    have hb' : c.Blocks l := fun a abi items h => hb a abi items (List.mem_cons_of_mem _ h)
    have ih := fun {cs : List ModContent} (k : modContent parent l' = .ok cs) =>
      mod_content c hl k hv' (fun f hf => hp f (hw f hf)) hb'
    cases x with
    | externCrate s =>
      simp only [mockableItem, gen_pure_ok] at hx
      subst hx
      exact ih k
    | impl s =>
      simp only [mockableItem, gen_pure_ok] at hx
      subst hx
      exact ih k
    | copied a s =>
      simp only [mockableItem, gen_pure_ok] at hx
      subst hx
      simp only [modContent, gen_bind_ok, gen_pure_ok] at k
      obtain ⟨r, hr, rfl⟩ := k
      obtain ⟨i1, i2, i3⟩ := ih hr
      refine ⟨?_, i2, ?_⟩
      · intro m hm
        rcases List.mem_cons.1 hm with e | hm
        · cases e
        · exact i1 m hm
      · rw [copies, ← i3]; rfl
    | nested s =>
      simp only [mockableItem, gen_pure_ok] at hx
      subst hx
      simp [modContent] at k
    | other s =>
      simp only [mockableItem, gen_pure_ok] at hx
      subst hx
      simp [modContent] at k
    | foreignMod a abi items =>
      simp only [mockableItem, gen_pure_ok] at hx
      subst hx
      simp only [modContent, gen_bind_ok, gen_pure_ok] at k
      obtain ⟨fs, hfs, r, hr, rfl⟩ := k
      obtain ⟨i1, i2, i3⟩ := ih hr
      obtain ⟨j1, j2, j3⟩ := foreign_content c hfs
        (fun f hf => hv.noSelf f (.foreign a abi items f List.mem_cons_self hf))
        (fun f hf => hv.noImpl a abi items f List.mem_cons_self hf)
        (fun f hf => hp f (.foreign a abi items f List.mem_cons_self hf))
      refine ⟨?_, ?_, ?_⟩
      · intro m hm
        rcases List.mem_append.1 hm with hm | hm
        · exact j1 m hm
        · exact i1 m hm
      · rw [Config.functions, hb a abi items List.mem_cons_self, if_pos rfl, live_append, List.map_append]
        exact pointwise_append j2 i2
      · rw [show copies (.foreignMod a abi items :: l) = copies l from rfl, ← i3]
        simp only [tokensOf, List.filterMap_append] at j3 ⊢
        rw [j3]; rfl
    | fn f =>
      simp only [mockableItem, mockableFn, gen_bind_ok, gen_pure_ok] at hx
      obtain ⟨f', ⟨inputs, hi, rfl⟩, rfl⟩ := hx
      simp only [modContent, gen_bind_ok, gen_pure_ok] at k
      obtain ⟨m, hm, r, hr, rfl⟩ := k
      obtain ⟨i1, i2, i3⟩ := ih hr
      have hf := hv.noSelf f (.fn f List.mem_cons_self)
      obtain ⟨e1, e2, e3, e4, e5, e6, e7, e8⟩ := modMeth_ok hm (fun h => hf ((demutify_static hi).1 h))
      have e1 : m.meth.attrs = f.attrs := e1
      refine ⟨good_cons e3 (by rw [e1]; exact hp f (.fn f List.mem_cons_self)) i1, ?_, i3⟩
      rw [Config.functions, live_fn, e1, List.map_append]
      refine pointwise_append ?_ i2
      split
      · refine .cons ?_ .nil
        refine ⟨e4, ?_, ?_, ?_, ?_, e5, e6, same_trans (demutify_same hf hi) e8, ?_⟩
        · rw [ModMeth.view, e2]
        · rw [ModMeth.view, e2]
        · rw [ModMeth.view, e2]
        · rw [ModMeth.view, e2]; exact .same _
        · rw [ModMeth.view, e7]
          exact deimplify_returns _
      · exact .nil


/-! ## The module -/

theorem expand_module {m : ItemMod} {o : OutMod} {l : List ModItem} (h : expandModule m = .ok o)
    (hl : m.content = some l) : ∃ l' cs, l.mapM mockableItem = .ok l' ∧
      modContent ("mock_" ++ m.ident) l' = .ok cs ∧ o.name = "mock_" ++ m.ident ∧ o.vis = m.vis ∧
      o.docs = some m.ident ∧ o.items = cs.flatMap ModContent.items ++
        [.checkpoint .pub "checkpoint" (cs.flatMap ModContent.stmts)] := by
  simp only [expandModule, mockableModule, hl, gen_bind_ok, gen_pure_ok, mockItemModule] at h
  obtain ⟨_, ⟨l', h1, rfl⟩, _, ⟨cs, h2, rfl⟩, rfl⟩ := h
  exact ⟨l', cs, h1, h2, rfl, rfl, rfl, rfl⟩

theorem strip_append (c : Config) (a b : List ModOut) : c.stripMod (a ++ b) = c.stripMod a ++ c.stripMod b :=
  List.filterMap_append

theorem stmts_live (c : Config) : ∀ {cs : List ModContent}, Good c cs →
    ((cs.flatMap ModContent.stmts).filter fun x => c.active x.attrs).map WithAttrs.val =
      (liveFns c cs).map (·.meth.innerMod)
  | [], _ => rfl
  | .tokens k s :: cs, h => stmts_live c (cs := cs) (good_tail h)
  | .fn m :: cs, h => by
    obtain ⟨hs, hp⟩ := h m List.mem_cons_self
    rw [live_fn, List.map_append, ← stmts_live c (good_tail h), List.flatMap_cons, List.filter_append,
      List.map_append]
    congr 1
    simp only [ModContent.stmts, List.filter_cons, ModMeth.checkpoint, noDoc, active_plain c _ hp]
    split <;> rfl

theorem copied_flat (cs : List ModContent) : (cs.flatMap fun (x : ModContent) => match x with
    | .fn _ => []
    | .tokens a s => [(a, s)]) = tokensOf cs := by
  induction cs with
  | nil => rfl
  | cons x cs ih => rw [List.flatMap_cons, ih]; cases x <;> rfl

theorem pointwise_map {α β γ : Type} {R : α → β → Prop} {f : α → γ} {g : β → γ}
    (h : ∀ a b, R a b → g b = f a) : ∀ {l m}, Pointwise R l m → m.map g = l.map f
  | _, _, .nil => rfl
  | _, _, .cons k ks => by rw [List.map_cons, List.map_cons, h _ _ k, pointwise_map h ks]

/-- C62: for every module that is mocked, in every configuration that removes no `extern` block of it: the mock
is called `mock_..` and has the module's visibility.  It has a mock of every function that is compiled in
the module, in order, with the visibility, qualifiers and signature of the original; a context for each, with
the same visibility, that sets the expectations of this very function; one `checkpoint`, public, that covers
these expectations once each, in order; and copies of the constants, aliases and imports.  It has nothing
else, and functions of different names do not share their expectations. -/
theorem C62_module_partial (m : ItemMod) (o : OutMod) (h : expandModule m = .ok o) (l : List ModItem)
    (hl : m.content = some l) (hv : ValidModule l) (c : Config) (hp : ∀ f, Writes l f → c.Plain f.attrs)
    (hb : c.Blocks l) :
    let S := c.stripMod o.items
    o.name = "mock_" ++ m.ident ∧ o.vis = m.vis ∧
    Pointwise Replaces (c.functions l) ((mockCalls S).map Prod.fst) ∧
    contexts S = (mockCalls S).map (fun (f, md) => (f.sig.ident ++ "_context", f.vis, md)) ∧
    modules S = (mockCalls S).map Prod.snd ∧
    checkpointFns S = [("checkpoint", .pub, modules S)] ∧
    copiedItems S = copies l ∧
    S.length = (mockCalls S).length + (contexts S).length + (modules S).length + (copies l).length + 1 ∧
    (((c.functions l).map (·.sig.ident)).Nodup → (modules S).Nodup) := by
  obtain ⟨l', cs, h1, h2, hn, hvis, -, hit⟩ := expand_module h hl
  obtain ⟨hg, hf, ht⟩ := mod_content c h1 h2 hv hp hb
  intro S
  have hS : S = c.stripMod (cs.flatMap ModContent.items) ++
      [.checkpoint .pub "checkpoint" ((cs.flatMap ModContent.stmts).filter fun x => c.active x.attrs)] := by
    simp only [S, hit, strip_append]
    rfl
  have v1 : mockCalls S = (liveFns c cs).map fun m => (ModMeth.view m, m.meth.innerMod) := by
    rw [hS, mockCalls, List.filterMap_append,
      view_content c _ (fun m => [(ModMeth.view m, m.meth.innerMod)]) (fun _ _ => [])
        (fun m hs => by simp [ModMeth.privMod, ModMeth.call, ModMeth.contextFn, hs, ModMeth.view])
        (fun _ _ => rfl) hg, live_map]
    simp
  have v2 : contexts S = (liveFns c cs).map fun m =>
      (m.meth.name ++ "_context", m.meth.fn.callVis, m.meth.innerMod) := by
    rw [hS, contexts, List.filterMap_append,
      view_content c _ (fun m => [(m.meth.name ++ "_context", m.meth.fn.callVis, m.meth.innerMod)])
        (fun _ _ => [])
        (fun m hs => by simp [ModMeth.privMod, ModMeth.call, ModMeth.contextFn, hs])
        (fun _ _ => rfl) hg, live_map]
    simp
  have v3 : modules S = (liveFns c cs).map (·.meth.innerMod) := by
    rw [hS, modules, List.filterMap_append,
      view_content c _ (fun m => [m.meth.innerMod]) (fun _ _ => [])
        (fun m hs => by simp [ModMeth.privMod, ModMeth.call, ModMeth.contextFn, hs])
        (fun _ _ => rfl) hg, live_map]
    simp
  have v4 : checkpointFns S = [("checkpoint", .pub, modules S)] := by
    rw [v3, ← stmts_live c hg, hS, checkpointFns, List.filterMap_append,
      view_content c _ (fun _ => []) (fun _ _ => [])
        (fun m hs => by simp [ModMeth.privMod, ModMeth.call, ModMeth.contextFn, hs])
        (fun _ _ => rfl) hg]
    have : (cs.flatMap fun (x : ModContent) => match x with
      | .fn m => if c.active m.meth.attrs = true then [] else []
      | .tokens _ _ => ([] : List (Ident × Vis × List Ident))) = [] := by
      rw [List.flatMap_eq_nil_iff]
      intro x _
      cases x <;> simp
    rw [this]
    rfl
  have v5 : copiedItems S = copies l := by
    rw [← ht, ← copied_flat, hS, copiedItems, List.filterMap_append,
      view_content c _ (fun _ => []) (fun a s => [(a, s)])
        (fun m hs => by simp [ModMeth.privMod, ModMeth.call, ModMeth.contextFn, hs])
        (fun _ _ => rfl) hg]
    simp
  refine ⟨hn, hvis, ?_, ?_, ?_, v4, v5, ?_, ?_⟩
  · rw [v1, List.map_map]
    exact hf
  · rw [v1, v2, List.map_map]
    rfl
  · rw [v1, v3, List.map_map]
    rfl
  · have : ∀ {cs : List ModContent}, Good c cs → (c.stripMod (cs.flatMap ModContent.items)).length =
        3 * (liveFns c cs).length + (tokensOf cs).length := by
      intro cs
      induction cs with
      | nil => intro _; rfl
      | cons x cs ih =>
        intro hg
        rw [strip_cons, List.length_append, ih (good_tail hg)]
        cases x with
        | tokens k s =>
          have e1 : liveFns c (.tokens k s :: cs) = liveFns c cs := rfl
          have e2 : tokensOf (.tokens k s :: cs) = (k, s) :: tokensOf cs := rfl
          have e3 : c.stripMod (ModContent.tokens k s).items = [.copied k s] := rfl
          rw [e1, e2, e3]
          simp only [List.length_cons, List.length_nil]
          omega
        | fn m =>
          obtain ⟨hs, hp⟩ := hg m List.mem_cons_self
          have e2 : tokensOf (.fn m :: cs) = tokensOf cs := rfl
          rw [live_fn, fn_items c hs hp, e2, List.length_append]
          split <;> simp <;> omega
    rw [v1, v2, v3, ← ht, hS]
    simp only [List.length_append, this hg, List.length_map, List.length_singleton]
    omega
  · intro hd
    rw [← pointwise_map (g := fun b : Callable => b.sig.ident) (fun a b (k : Replaces a b) => k.name) hf,
      List.map_map] at hd
    rw [v3]
    have e : (fun m : ModMeth => m.meth.innerMod) = ("__" ++ ·) ∘ fun m : ModMeth => m.meth.fn.sig.ident := rfl
    rw [e, ← List.map_map]
    exact List.Pairwise.map _ (fun a b h k => h (string_append_right k)) hd

/-! ## What is rejected -/

theorem content_supported {parent : Ident} : ∀ {l : List ModItem} {cs : List ModContent},
    modContent parent l = .ok cs →
      (∀ s, .nested s ∉ l) ∧ (∀ s, .other s ∉ l) ∧ ∀ a abi items s, .foreignMod a abi items ∈ l → .other s ∉ items
  | [], _, _ => by simp
  | x :: l, cs, h => by
    have key : ∀ {cs}, modContent parent l = .ok cs → (∀ s, x ≠ .nested s) → (∀ s, x ≠ .other s) →
        (∀ a abi items s, x = .foreignMod a abi items → .other s ∉ items) →
        (∀ s, .nested s ∉ x :: l) ∧ (∀ s, .other s ∉ x :: l) ∧
          ∀ a abi items s, .foreignMod a abi items ∈ x :: l → .other s ∉ items := by
      intro cs h k1 k2 k3
      obtain ⟨i1, i2, i3⟩ := content_supported h
      refine ⟨fun s hs => ?_, fun s hs => ?_, fun a abi items s hs => ?_⟩
      · rcases List.mem_cons.1 hs with e | hs
        · exact k1 s e.symm
        · exact i1 s hs
      · rcases List.mem_cons.1 hs with e | hs
        · exact k2 s e.symm
        · exact i2 s hs
      · rcases List.mem_cons.1 hs with e | hs
        · exact k3 a abi items s e.symm
        · exact i3 a abi items s hs
    cases x with
    | externCrate s => exact key h (by simp) (by simp) (by simp)
    | impl s => exact key h (by simp) (by simp) (by simp)
    | copied a s =>
      simp only [modContent, gen_bind_ok] at h
      obtain ⟨r, hr, -⟩ := h
      exact key hr (by simp) (by simp) (by simp)
    | fn f =>
      simp only [modContent, gen_bind_ok] at h
      obtain ⟨_, -, r, hr, -⟩ := h
      exact key hr (by simp) (by simp) (by simp)
    | nested s => simp [modContent] at h
    | other s => simp [modContent] at h
    | foreignMod a abi items =>
      simp only [modContent, gen_bind_ok] at h
      obtain ⟨fs, hfs, r, hr, -⟩ := h
      refine key hr (by simp) (by simp) ?_
      rintro _ _ _ s e
      cases e
      clear key hr
      induction items generalizing fs with
      | nil => simp
      | cons y items ih =>
        cases y with
        | other t => simp [foreignContent] at hfs
        | fn f =>
          simp only [foreignContent, gen_bind_ok] at hfs
          obtain ⟨_, -, r, hr, -⟩ := hfs
          intro hs
          rcases List.mem_cons.1 hs with e | hs
          · cases e
          · exact ih r hr hs

theorem mockableItem_other {x y : ModItem} (h : mockableItem x = .ok y) (hf : ∀ f, x ≠ .fn f) : y = x := by
  cases x with
  | fn f => exact absurd rfl (hf f)
  | _ => simp only [mockableItem, gen_pure_ok] at h; exact h.symm

/-- C62: modules in other files, modules with types, traits or modules in them, with macros, or with anything
but functions in an `extern` block, are rejected. -/
theorem C62_rejects (m : ItemMod) (h : Gen.succeeds (expandModule m)) : ∃ l, m.content = some l ∧
    (∀ s, .nested s ∉ l) ∧ (∀ s, .other s ∉ l) ∧
    ∀ a abi items s, .foreignMod a abi items ∈ l → .other s ∉ items := by
  obtain ⟨o, h⟩ := h
  cases hc : m.content with
  | none => simp [expandModule, mockableModule, hc] at h
  | some l =>
    obtain ⟨l', cs, h1, h2, -⟩ := expand_module h hc
    obtain ⟨i1, i2, i3⟩ := content_supported h2
    have mem : ∀ x, x ∈ l → (∀ f, x ≠ .fn f) → x ∈ l' := by
      intro x hx hf
      obtain ⟨y, hy, e⟩ := mapM_mem h1 hx
      rwa [mockableItem_other e hf] at hy
    exact ⟨l, rfl, fun s hs => i1 s (mem _ hs (by simp)), fun s hs => i2 s (mem _ hs (by simp)),
      fun a abi items s hs => i3 a abi items s (mem _ hs (by simp))⟩

/-! ## Where C62 fails -/

/-- The attributes of the module are ignored: a mock of `#[cfg(..)] mod m {..}` is compiled in every
configuration. -/
theorem C62_attrs_ignored (m : ItemMod) (a : List Attr) : expandModule { m with attrs := a } = expandModule m :=
  rfl

/-! ## C63: foreign functions -/

theorem foreign_call {parent : Ident} {abi : Option String} {f : ModFn} :
    ∀ {items : List ForeignItem} {cs : List ModContent}, foreignContent parent abi items = .ok cs →
      .fn f ∈ items → ∃ m, .fn m ∈ cs ∧ modMeth parent (foreignFn abi f) = .ok m
  | .other _ :: _, _, h, _ => by simp [foreignContent] at h
  | .fn f' :: l, cs, h, hf => by
    simp only [foreignContent, gen_bind_ok, gen_pure_ok] at h
    obtain ⟨m, hm, r, hr, rfl⟩ := h
    rcases List.mem_cons.1 hf with e | hf
    · cases e
      exact ⟨m, List.mem_cons_self, hm⟩
    · obtain ⟨m', h1, h2⟩ := foreign_call hr hf
      exact ⟨m', List.mem_cons_of_mem _ h1, h2⟩

theorem content_call {parent : Ident} {a : List Attr} {abi : Option String} {items : List ForeignItem}
    {f : ModFn} (hf : .fn f ∈ items) : ∀ {l : List ModItem} {cs : List ModContent},
      modContent parent l = .ok cs → .foreignMod a abi items ∈ l →
      ∃ m, .fn m ∈ cs ∧ modMeth parent (foreignFn abi f) = .ok m
  | x :: l, cs, h, hi => by
    rcases List.mem_cons.1 hi with rfl | hi
    · simp only [modContent, gen_bind_ok, gen_pure_ok] at h
      obtain ⟨fs, hfs, r, -, rfl⟩ := h
      obtain ⟨m, h1, h2⟩ := foreign_call hfs hf
      exact ⟨m, List.mem_append.2 (.inl h1), h2⟩
    · have ih := fun {cs} (k : modContent parent l = .ok cs) => content_call hf k hi
      cases x with
      | externCrate s => exact ih h
      | impl s => exact ih h
      | copied a s =>
        simp only [modContent, gen_bind_ok, gen_pure_ok] at h
        obtain ⟨r, hr, rfl⟩ := h
        obtain ⟨m, h1, h2⟩ := ih hr
        exact ⟨m, List.mem_cons_of_mem _ h1, h2⟩
      | fn f =>
        simp only [modContent, gen_bind_ok, gen_pure_ok] at h
        obtain ⟨_, -, r, hr, rfl⟩ := h
        obtain ⟨m, h1, h2⟩ := ih hr
        exact ⟨m, List.mem_cons_of_mem _ h1, h2⟩
      | nested s => simp [modContent] at h
      | other s => simp [modContent] at h
      | foreignMod a abi items =>
        simp only [modContent, gen_bind_ok, gen_pure_ok] at h
        obtain ⟨fs, -, r, hr, rfl⟩ := h
        obtain ⟨m, h1, h2⟩ := ih hr
        exact ⟨m, List.mem_append.2 (.inr h1), h2⟩

/-- C63: the mock of a function in an `extern` block is an unsafe function of the same name and ABI, except that
`extern "C"` becomes `extern "C-unwind"`; its name is not mangled unless the ABI is Rust's; and a panic may
leave it iff the block was written `extern "C"` or its ABI allows for that. -/
theorem C63_foreign_partial (m : ItemMod) (o : OutMod) (h : expandModule m = .ok o) (l : List ModItem)
    (hl : m.content = some l) (a : List Attr) (abi : Option String) (items : List ForeignItem) (f : ModFn)
    (hi : .foreignMod a abi items ∈ l) (hf : .fn f ∈ items) (hs : ¬ IsMethod f.sig.inputs) :
    ∃ attrs noMangle q s md, .call attrs noMangle f.vis q s md ∈ o.items ∧ s.ident = f.sig.ident ∧
      q.isUnsafe = true ∧ SameAbi (some abi) q.abi ∧ (noMangle = true ↔ abiName abi ≠ "Rust") ∧
      (mayUnwind q.abi = true ↔ abi = some "C" ∨ mayUnwind (some abi) = true) := by
  obtain ⟨l', cs, h1, h2, -, -, -, hit⟩ := expand_module h hl
  have hi' : .foreignMod a abi items ∈ l' := by
    obtain ⟨y, hy, e⟩ := mapM_mem h1 hi
    rwa [mockableItem_other e (by simp)] at hy
  obtain ⟨x, hx, e⟩ := content_call hf h2 hi'
  obtain ⟨e1, e2, e3, e4, e5, -⟩ := modMeth_ok e hs
  have hc : x.call ∈ o.items := by
    rw [hit, List.mem_append, List.mem_flatMap]
    exact .inl ⟨_, hx, by simp [ModContent.items]⟩
  rw [ModMeth.call, if_pos e3, e4] at hc
  have hq : x.qual.abi = some (if abi = some "C" then some "C-unwind" else abi) := by rw [e2]; rfl
  refine ⟨_, _, _, _, _, hc, e5, by rw [e2]; rfl, ?_, ?_, ?_⟩
  · rw [hq]
    split
    · rename_i k; subst k; exact .unwind
    · exact .same _
  · rw [Qual.noMangle, hq]
    rcases abi with _ | s
    · simp [abiName]
    · by_cases k : s = "C"
      · subst k; simp [abiName]
      · simp [k, abiName]
  · rw [hq]
    split
    · rename_i k; subst k; simp [mayUnwind]
    · rename_i k; simp [k]

/-! ## Examples -/

/-- `#[cfg(unix)]`. -/
def exCfg : Attr := .plain [] "cfg" ["unix"]

/-- Not on Unix. -/
def exConfig : Config where
  lets a := a ≠ exCfg
  only := by
    intro a h
    simp only [ne_eq, decide_not, Bool.not_eq_eq_eq_not, Bool.not_false, decide_eq_true_eq] at h
    exact .inl ⟨_, h⟩

/-- `pub mod m { use super::*; #[cfg(unix)] pub fn f(mut x: u32) -> impl Future; fn g();
#[link(name = "c")] extern "C" { pub fn h(y: &u8); } impl X for Y {} const C: u8 = 0; }`. -/
def exModule : ItemMod where
  vis := .pub
  ident := "m"
  content := some [
    .copied .use "use super::*;",
    .fn { attrs := [exCfg], vis := .pub, sig := {
      ident := "f", inputs := [.typed [] (.ident false true "x" false) (.name "u32")]
      output := .ty (.implTrait [.trait false [] false [.of "Future"]]) } },
    .fn { sig := { ident := "g" } },
    .foreignMod [.plain [] "link" ["name", "c"]] (some "C") [.fn { vis := .pub, sig := {
      ident := "h", inputs := [.typed [] (.ident false false "y" false) (.ref none false (.name "u8"))] } }],
    .impl "impl X for Y {}",
    .copied .const "const C: u8 = 0;"]

/-- What is visible of the mock of a module in a configuration. -/
def shown (c : Config) (m : ItemMod) : Option (List (Ident × Bool) × List Ident × List (CopyKind × String)) :=
  (expandModule m).toOption.map fun o =>
    ((mockCalls (c.stripMod o.items)).map fun x => (x.1.sig.ident, x.1.qual.isUnsafe),
      modules (c.stripMod o.items), copiedItems (c.stripMod o.items))

example : shown ⟨fun _ => true, by simp⟩ exModule = some ([("f", false), ("g", false), ("h", true)],
    ["__f", "__g", "__h"], [(.use, "use super::*;"), (.const, "const C: u8 = 0;")]) := by decide +kernel

example : shown exConfig exModule = some ([("g", false), ("h", true)],
    ["__g", "__h"], [(.use, "use super::*;"), (.const, "const C: u8 = 0;")]) := by decide +kernel

theorem exModule_valid : ValidModule (exModule.content.getD []) := by
  constructor
  · intro f h
    have hin : f.sig.inputs.all (fun | .receiver _ _ _ _ => false | _ => true) = true := by
      cases h with
      | fn _ h =>
        simp only [exModule, Option.getD_some, List.mem_cons, List.not_mem_nil, or_false, reduceCtorEq,
          false_or, ModItem.fn.injEq] at h
        rcases h with rfl | rfl <;> rfl
      | foreign a abi items _ h hf =>
        simp only [exModule, Option.getD_some, List.mem_cons, List.not_mem_nil, or_false, reduceCtorEq,
          false_or, ModItem.foreignMod.injEq] at h
        obtain ⟨-, -, rfl⟩ := h
        simp only [List.mem_cons, List.not_mem_nil, or_false, ForeignItem.fn.injEq] at hf
        subst hf
        rfl
    rintro ⟨r, m, c, t, hm⟩
    exact absurd (List.all_eq_true.1 hin _ hm) (by simp)
  · intro a abi items f h hf bs
    simp only [exModule, Option.getD_some, List.mem_cons, List.not_mem_nil, or_false, reduceCtorEq,
      false_or, ModItem.foreignMod.injEq] at h
    obtain ⟨-, -, rfl⟩ := h
    simp only [List.mem_cons, List.not_mem_nil, or_false, ForeignItem.fn.injEq] at hf
    subst hf
    simp

/-- C62 fails for `extern` blocks that are not compiled: `#[cfg(unix)] extern "C" { fn h(); }` has no `h`
where there is no Unix, its mock has. -/
theorem C62_block_cfg :
    let m : ItemMod := { ident := "m", content := some [.foreignMod [exCfg] (some "C") [.fn { sig := { ident := "h" } }]] }
    exConfig.functions (m.content.getD []) = [] ∧ shown exConfig m = some ([("h", true)], ["__h"], []) := by
  refine ⟨rfl, ?_⟩
  decide +kernel

/-- The ABI of the mock of the only function of a module. -/
def abiOf (m : ItemMod) : Option (List (Option (Option String))) :=
  (expandModule m).toOption.map fun o => (mockCalls o.items).map fun x => x.1.qual.abi

/-- C63 fails for `extern { fn h(); }`, which is the same as `extern "C"`, for `extern "system"`, and for a
function `extern "C" fn h() {..}` of the module: a panic of the mock, such as that for an unexpected call,
aborts the process. -/
theorem C63_abort :
    (∀ abi, abi = none ∨ abi = some "system" →
      ∃ q, abiOf { ident := "m", content := some [.foreignMod [] abi [.fn { sig := { ident := "h" } }]] } =
        some [q] ∧ mayUnwind q = false) ∧
    ∃ q, abiOf { ident := "m", content := some [.fn { qual := { abi := some (some "C") }, sig := { ident := "h" } }] } =
        some [q] ∧ mayUnwind q = false := by
  refine ⟨?_, ?_⟩
  · rintro abi (rfl | rfl)
    · exact ⟨some none, by decide +kernel, rfl⟩
    · exact ⟨some (some "system"), by decide +kernel, by decide +kernel⟩
  · exact ⟨some (some "C"), by decide +kernel, by decide +kernel⟩

end Mockall.Props
