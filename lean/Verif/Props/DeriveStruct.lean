import Verif.Lemmas.Struct
import Verif.Props.DeriveBuild

/-! # C52: the stores of a mock struct -/

namespace Mockall.Props

open Derive Spec

/-- The places of the stores of the methods. -/
def places (ms : List Meth) : List (List Ident) := ms.map fun m => [m.name]

theorem methods_field {S : List Item} {s : Ident} {a : StructHead} {ms : List Meth} {md : Ident}
    {pre post : List Field} (h : .struct a s (pre ++ ms.map (·.field md) ++ post) ∈ S) :
    ∀ m ∈ ms, ∃ md g, HasField S s m.name (.store md g) := fun m hm =>
  ⟨_, _, a, _, _, h, List.mem_append.2 (.inl (List.mem_append.2 (.inr (List.mem_map.2 ⟨m, hm, rfl⟩))))⟩

theorem phantoms_strip {ps : List Field} (h : ∀ f ∈ ps, f.attrs = [] ∧ ∃ p, f.ty = .phantom p) (c : Config) :
    ps.filter (fun x => c.active x.attrs) = ps := by
  rw [List.filter_eq_self]
  intro f hf
  rw [(h f hf).1]
  rfl

theorem sub_orders {m : MockItemStruct} {items : List Item} (L : Layout m items) (c : Config)
    {s : SubStruct} (hs : s ∈ m.substructs) (ha : c.active (noDocAsync s.attrs) = true) :
    Checkpoints (c.strip items) s.name (places (liveMeths c s.methods)) ∧
    DropOrder (c.strip items) s.name (places (liveMeths c s.methods)) := by
  have I := L.subs s hs
  have hp := phantoms_are L.phantom
  have hst := struct_strip (c := c) I.struct ha
  rw [List.filter_append, fields_strip, phantoms_strip hp] at hst
  have hfn := fn_strip (c := c) I.impl ha List.mem_cons_self rfl
  rw [Config.body, checkpoints_strip] at hfn
  constructor
  · refine ⟨_, hfn, ?_⟩
    have := methods_run (S := c.strip items) (Runs.nil s.name) (liveMeths c s.methods)
      (methods_field (pre := []) hst)
    simpa [places] using this
  · refine ⟨_, _, hst, ?_⟩
    have := methods_hold (md := s.modname) (phantoms_hold (S := c.strip items) fun f hf => (hp f hf).2)
      (liveMeths c s.methods)
    simpa [places] using this

/-- The stores of the substructs. -/
def subPlaces (c : Config) (l : List SubStruct) : List (List Ident) :=
  l.flatMap fun s => (places (liveMeths c s.methods)).map (s.fieldname :: ·)

theorem subs_hold {S : List Item} {c : Config} {fs : List Field} {l : List (List Ident)}
    (h : Holds S fs l) : ∀ subs : List SubStruct,
      (∀ s ∈ subs, DropOrder S s.name (places (liveMeths c s.methods))) →
      Holds S (subs.map (fun s => ⟨noDocAsync s.attrs, s.fieldname, .sub s.name⟩) ++ fs)
        (subPlaces c subs ++ l)
  | [], _ => h
  | s :: subs, k => by
    obtain ⟨a, fs', hs, h'⟩ := k s List.mem_cons_self
    have := Holds.sub (a := noDocAsync s.attrs) (f := s.fieldname) hs h'
      (subs_hold h subs fun s hs => k s (List.mem_cons_of_mem _ hs))
    simpa [subPlaces] using this

theorem subs_run {S : List Item} {c : Config} {n : Ident} {stmts l} (h : Runs S n stmts l) :
    ∀ subs : List SubStruct,
      (∀ s ∈ subs, HasField S n s.fieldname (.sub s.name) ∧
        Checkpoints S s.name (places (liveMeths c s.methods))) →
      Runs S n (subs.map (fun s => ⟨noDocAsync s.attrs, [s.fieldname]⟩) ++ stmts) (subPlaces c subs ++ l)
  | [], _ => h
  | s :: subs, k => by
    obtain ⟨hf, st, hc, h'⟩ := k s List.mem_cons_self
    have := Runs.sub (a := noDocAsync s.attrs) hf hc h'
      (subs_run h subs fun s hs => k s (List.mem_cons_of_mem _ hs))
    simpa [subPlaces] using this

/-- The substructs that have a field in configuration `c`. -/
def liveSubs (c : Config) (m : MockItemStruct) : List SubStruct :=
  m.substructs.filter fun s => !s.allStatic && c.active (noDocAsync s.attrs)

theorem liveSubs_filter {α : Type} (c : Config) (m : MockItemStruct) (f : SubStruct → α)
    (p : α → Bool) (hp : ∀ s, p (f s) = c.active (noDocAsync s.attrs)) :
    ((m.substructs.filter (!·.allStatic)).map f).filter p = (liveSubs c m).map f := by
  simp only [liveSubs, List.filter_map, List.filter_filter]
  congr 2
  funext s
  simp only [Function.comp, hp, Bool.and_comm]

theorem main_orders {m : MockItemStruct} {items : List Item} (L : Layout m items) (c : Config)
    (ha : c.active (mainAttrs m) = true) :
    Checkpoints (c.strip items) m.name (subPlaces c (liveSubs c m) ++ places (liveMeths c m.methods)) ∧
    DropOrder (c.strip items) m.name (subPlaces c (liveSubs c m) ++ places (liveMeths c m.methods)) := by
  have hp := phantoms_are L.phantom
  have hst := struct_strip (c := c) L.struct ha
  rw [mainFields, List.filter_append, List.filter_append, fields_strip, phantoms_strip hp,
    liveSubs_filter c m _ (fun x : Field => c.active x.attrs) (fun s => rfl)] at hst
  have hfn := fn_strip (c := c) (fa := pubFn) (n := "checkpoint") (b := .checkpoint (mainStmts m)) L.impl rfl
    (by simp [mainFns]) rfl
  rw [Config.body, mainStmts, List.filter_append, checkpoints_strip,
    liveSubs_filter c m _ (fun x : WithAttrs (List Ident) => c.active x.attrs) (fun s => rfl)] at hfn
  have hsub : ∀ s ∈ liveSubs c m, Checkpoints (c.strip items) s.name (places (liveMeths c s.methods)) ∧
      DropOrder (c.strip items) s.name (places (liveMeths c s.methods)) := by
    intro s hs
    obtain ⟨hs, h2⟩ := List.mem_filter.1 hs
    rw [Bool.and_eq_true] at h2
    exact sub_orders L c hs h2.2
  constructor
  · refine ⟨_, hfn, ?_⟩
    refine subs_run ?_ _ fun s hs => ⟨⟨_, _, noDocAsync s.attrs, hst, ?_⟩, (hsub s hs).1⟩
    · have := methods_run (S := c.strip items) (Runs.nil m.name) (liveMeths c m.methods)
        (methods_field hst)
      simpa [places] using this
    · exact List.mem_append.2 (.inl (List.mem_append.2 (.inl (List.mem_map.2 ⟨s, hs, rfl⟩))))
  · refine ⟨_, _, hst, ?_⟩
    rw [List.append_assoc]
    refine subs_hold ?_ _ fun s hs => (hsub s hs).2
    have := methods_hold (md := m.modname) (phantoms_hold (S := c.strip items) fun f hf => (hp f hf).2)
      (liveMeths c m.methods)
    simpa [places] using this

theorem expand_steps {hash : List Args → Nat} {m : MockableStruct} {items : List Item}
    (h : expandStruct hash m = .ok items) :
    ∃ mi, mockItemStruct hash m = .ok mi ∧ Nonempty (Layout mi items) := by
  simp only [expandStruct, gen_bind_ok] at h
  obtain ⟨mi, h1, h2⟩ := h
  exact ⟨mi, h1, layout h2⟩

/-- C52: `checkpoint()` of the mock checkpoints each of its stores exactly once, and no other; in the order
in which they are dropped.  For every definition, in every configuration in which the struct itself is
compiled and `rustc` accepts the names. -/
theorem C52_checkpoint (hash : List Args → Nat) (m : MockableStruct) (items : List Item)
    (h : expandStruct hash m = .ok items) (c : Config) (hs : ∀ a ∈ m.attrs, c.lets a = true)
    (hacc : Accepted (c.strip items)) :
    ∃ l, Checkpoints (c.strip items) m.name l ∧ DropOrder (c.strip items) m.name l ∧ l.Nodup ∧
      ∀ p, p ∈ l ↔ ∃ module, IsStore (c.strip items) m.name p module := by
  obtain ⟨mi, h1, ⟨L⟩⟩ := expand_steps h
  simp only [mockItemStruct, gen_bind_ok, gen_pure_ok] at h1
  obtain ⟨ms, -, ts, -, rfl⟩ := h1
  obtain ⟨k1, k2⟩ := main_orders L c (active_format_of c _ _ hs)
  obtain ⟨a, fs, k3, k4⟩ := id k2
  exact ⟨_, k1, k2, holds_nodup hacc k4 (hacc.fields _ _ _ k3), fun p =>
    (holds_mem hacc k4 p).trans (isStore_iff hacc k3 p).symm⟩

/-! ## Methods -/

theorem methOf_ok {g : Generics} {t : Option Ident} {v : Vis} {attrs : List Attr} {q : Qual} {sig : Sig}
    {m : Meth} (h : methOf g t v attrs q sig = .ok m) :
    m.attrs = attrs ∧ m.trait = t ∧ m.name = sig.ident ∧ (m.isStatic = true ↔ ¬ IsMethod sig.inputs) := by
  simp only [methOf, gen_bind_ok, gen_pure_ok] at h
  obtain ⟨f, hf, rfl⟩ := h
  refine ⟨rfl, rfl, ?_, (C59_kind _ f hf).2.2.2.2.1⟩
  obtain ⟨s⟩ := build_steps hf
  have hp := s.prep
  unfold prepare at hp
  split at hp
  · simp only [concretizeArgs, gen_bind_ok, gen_pure_ok, Prod.mk.injEq] at hp
    obtain ⟨_, -, _, -, _, -, _, -, _, -, -, -, -, h⟩ := hp
    simp only [Meth.name, ← h]
  · simp only [gen_bind_ok, gen_pure_ok, Prod.mk.injEq] at hp
    obtain ⟨_, -, -, -, -, h⟩ := hp
    simp only [Meth.name, ← h]

theorem meth_active {c : Config} {m : Meth} (h : ∀ a ∈ m.attrs, c.lets a = true) (f : AttrFormatter) :
    c.active (f.format m.attrs) = true := active_format_of c f _ h

/-- The code for a method that has a store. -/
theorem inherent_meth {mi : MockItemStruct} {items : List Item} (L : Layout mi items) (c : Config)
    (hs : c.active (mainAttrs mi) = true) {m : Meth} (hm : m ∈ mi.methods) (ht : m.trait = none)
    (hst : m.isStatic = false) (ha : ∀ a ∈ m.attrs, c.lets a = true) :
    HasFn (c.strip items) mi.name none m.name (.call [m.name]) ∧
    HasFn (c.strip items) mi.name none ("expect_" ++ m.name) (.expect [m.name] [mi.modname, m.innerMod]) ∧
    IsStore (c.strip items) mi.name [m.name] [mi.modname, m.innerMod] ∧
    HasModule (c.strip items) [mi.modname, m.innerMod] := by
  have hp : m.place = [m.name] := by rw [Meth.place, ht]
  refine ⟨?_, ?_, .here _ _ _ m.fn.isMethodGeneric ?_, ?_⟩
  · have := fn_strip (c := c) (fa := (m.call mi.modname).head) (n := m.name)
      (b := (m.call mi.modname).body) L.impl rfl (by
        simp only [mainFns, List.mem_append, List.mem_map]
        exact .inl (.inl (.inl (.inl ⟨m, hm, rfl⟩)))) (meth_active ha _)
    simpa [Meth.call, hst, Config.body, hp] using this
  · have := fn_strip (c := c) (fa := (m.expect mi.modname).head) (n := "expect_" ++ m.name)
      (b := (m.expect mi.modname).body) L.impl rfl (by
        simp only [mainFns, List.mem_append, List.mem_map]
        exact .inl (.inl (.inr ⟨m, List.mem_filter.2 ⟨hm, by simp [hst]⟩, rfl⟩))) (meth_active ha _)
    simpa [Meth.expect, Config.body, hp] using this
  · refine field_strip L.struct hs (fa := (m.field mi.modname).attrs) ?_ (meth_active ha _)
    simp only [mainFields, fieldDefinitions, List.mem_append, List.mem_map]
    exact .inl (.inr ⟨m, List.mem_filter.2 ⟨hm, by simp [hst]⟩, rfl⟩)
  · exact module_strip L.mod rfl (List.mem_map.2 ⟨m, hm, rfl⟩) (meth_active ha _)

/-- C52: each instance method of the mock has one store: its call and its `expect` use it, it is of the
type they need, and `checkpoint` (`C52_checkpoint`) covers it. -/
theorem C52_instance (hash : List Args → Nat) (m : MockableStruct) (items : List Item)
    (h : expandStruct hash m = .ok items) (c : Config) (hs : ∀ a ∈ m.attrs, c.lets a = true)
    (f : ImplFn) (hf : f ∈ m.methods) (hi : IsMethod f.sig.inputs) (ha : ∀ a ∈ f.attrs, c.lets a = true) :
    ∃ module,
      HasFn (c.strip items) m.name none f.sig.ident (.call [f.sig.ident]) ∧
      HasFn (c.strip items) m.name none ("expect_" ++ f.sig.ident) (.expect [f.sig.ident] module) ∧
      IsStore (c.strip items) m.name [f.sig.ident] module ∧ HasModule (c.strip items) module := by
  obtain ⟨mi, h1, ⟨L⟩⟩ := expand_steps h
  simp only [mockItemStruct, gen_bind_ok, gen_pure_ok] at h1
  obtain ⟨ms, h1, ts, -, rfl⟩ := h1
  obtain ⟨x, hx, e⟩ := mapM_mem h1 hf
  obtain ⟨e1, e2, e3, e4⟩ := methOf_ok e
  have hst : x.isStatic = false := by
    cases hb : x.isStatic with
    | false => rfl
    | true => exact absurd hi (e4.1 hb)
  have := inherent_meth L c (active_format_of c _ _ hs) hx e2 hst (by rw [e1]; exact ha)
  rw [e3] at this
  exact ⟨_, this⟩

theorem static_meth {mi : MockItemStruct} {items : List Item} (L : Layout mi items) (c : Config)
    (hs : c.active (mainAttrs mi) = true) (hacc : Accepted (c.strip items)) {x : Meth}
    (hx : x ∈ mi.methods) (hst : x.isStatic = true) (ha : ∀ a ∈ x.attrs, c.lets a = true) :
    HasFn (c.strip items) mi.name none x.name (.callStatic [mi.modname, x.innerMod]) ∧
    HasFn (c.strip items) mi.name none (x.name ++ "_context") (.context [mi.modname, x.innerMod]) ∧
    HasModule (c.strip items) [mi.modname, x.innerMod] ∧
    ¬ ∃ md, IsStore (c.strip items) mi.name [x.name] md := by
  refine ⟨?_, ?_, ?_, ?_⟩
  · have := fn_strip (c := c) (fa := (x.call mi.modname).head) (n := x.name)
      (b := (x.call mi.modname).body) L.impl rfl (by
        simp only [mainFns, List.mem_append, List.mem_map]
        exact .inl (.inl (.inl (.inl ⟨x, hx, rfl⟩)))) (meth_active ha _)
    simpa [Meth.call, hst, Config.body] using this
  · have := fn_strip (c := c) (fa := (x.contextFn mi.modname).head) (n := x.name ++ "_context")
      (b := (x.contextFn mi.modname).body) L.impl rfl (by
        simp only [mainFns, List.mem_append, List.mem_map]
        exact .inl (.inl (.inl (.inr ⟨x, List.mem_filter.2 ⟨hx, hst⟩, rfl⟩)))) (meth_active ha _)
    simpa [Meth.contextFn, Config.body] using this
  · exact module_strip L.mod rfl (List.mem_map.2 ⟨x, hx, rfl⟩) (meth_active ha _)
  · rintro ⟨md, k⟩
    have hstr := struct_strip (c := c) L.struct hs
    obtain ⟨fld, hfld, ⟨_, _, ety, en⟩ | ⟨_, _, _, _, en, k⟩⟩ := (isStore_iff hacc hstr [x.name]).1 ⟨md, k⟩
    · obtain ⟨hfld, hact⟩ := List.mem_filter.1 hfld
      simp only [mainFields, fieldDefinitions, List.mem_append, List.mem_map] at hfld
      rcases hfld with (⟨s, -, rfl⟩ | ⟨y, hy, rfl⟩) | hfld
      · cases ety
      · obtain ⟨hy, hys⟩ := List.mem_filter.1 hy
        have hn := hacc.fns _ _ _ _ (impl_strip (c := c) L.impl rfl)
        rw [List.map_map] at hn
        have mem : ∀ z ∈ mi.methods, c.active (z.call mi.modname).attrs = true →
            z.call mi.modname ∈ (mainFns mi).filter fun x => c.active x.attrs := fun z hz ha =>
          List.mem_filter.2 ⟨by
            simp only [mainFns, List.mem_append, List.mem_map]
            exact .inl (.inl (.inl (.inl ⟨z, hz, rfl⟩))), ha⟩
        have := nodup_map_eq hn (mem x hx (meth_active ha _))
          (mem y hy (by rw [← hact]; exact active_format c _ _ _)) (by
            simpa [Meth.field, Meth.call] using en)
        have := congrArg FnItem.body this
        simp only [Meth.call, hst, if_true, if_neg (show ¬ y.isStatic = true by simpa using hys)] at this
        cases this
      · rw [(phantoms_are L.phantom _ hfld).2.choose_spec] at ety
        cases ety
    · obtain ⟨-, rfl⟩ := List.cons.inj en
      cases k

/-- C52: a static method has no store in the struct; its calls use the expectations of the same module as
its context. -/
theorem C52_static (hash : List Args → Nat) (m : MockableStruct) (items : List Item)
    (h : expandStruct hash m = .ok items) (c : Config) (hs : ∀ a ∈ m.attrs, c.lets a = true)
    (hacc : Accepted (c.strip items)) (f : ImplFn) (hf : f ∈ m.methods) (hi : ¬ IsMethod f.sig.inputs)
    (ha : ∀ a ∈ f.attrs, c.lets a = true) :
    ∃ module,
      HasFn (c.strip items) m.name none f.sig.ident (.callStatic module) ∧
      HasFn (c.strip items) m.name none (f.sig.ident ++ "_context") (.context module) ∧
      HasModule (c.strip items) module ∧ ¬ ∃ md, IsStore (c.strip items) m.name [f.sig.ident] md := by
  obtain ⟨mi, h1, ⟨L⟩⟩ := expand_steps h
  simp only [mockItemStruct, gen_bind_ok, gen_pure_ok] at h1
  obtain ⟨ms, h1, ts, -, rfl⟩ := h1
  obtain ⟨x, hx, e⟩ := mapM_mem h1 hf
  obtain ⟨e1, e2, e3, e4⟩ := methOf_ok e
  rw [← e1] at ha
  rw [← e3]
  exact ⟨_, static_meth L c (active_format_of c _ _ hs) hacc hx (e4.2 hi) ha⟩

/-! ## Traits -/

theorem traitMethods_mem {g : Generics} {ss : Ident} {v : Vis} : ∀ {l : List ImplItem} {ms : List Meth},
    traitMethods g ss v l = .ok ms →
      (∀ f, .fn f ∈ l → ∃ m ∈ ms, methOf g (some ss) v f.attrs f.qual f.sig = .ok m) ∧
      (∀ m ∈ ms, m.trait = some ss)
  | [], ms, h => by
    simp only [traitMethods, gen_pure_ok] at h
    subst h
    simp
  | .const _ :: l, ms, h => by
    rw [traitMethods] at h
    · obtain ⟨h1, h2⟩ := traitMethods_mem h
      exact ⟨fun f hf => h1 f (by simpa using hf), h2⟩
    all_goals (intros; rename_i e; cases e)
  | .type _ :: l, ms, h => by
    rw [traitMethods] at h
    · obtain ⟨h1, h2⟩ := traitMethods_mem h
      exact ⟨fun f hf => h1 f (by simpa using hf), h2⟩
    all_goals (intros; rename_i e; cases e)
  | .other _ :: l, ms, h => by
    simp [traitMethods] at h
  | .fn f :: l, ms, h => by
    simp only [traitMethods, gen_bind_ok, gen_pure_ok] at h
    obtain ⟨m, hm, r, hr, rfl⟩ := h
    obtain ⟨h1, h2⟩ := traitMethods_mem hr
    constructor
    · intro f' hf'
      rcases List.mem_cons.1 hf' with e | hf'
      · cases e; exact ⟨m, List.mem_cons_self, hm⟩
      · obtain ⟨m', hm', e⟩ := h1 f' hf'
        exact ⟨m', List.mem_cons_of_mem _ hm', e⟩
    · intro m' hm'
      rcases List.mem_cons.1 hm' with rfl | hm'
      · exact (methOf_ok hm).2.1
      · exact h2 m' hm'

theorem mockTrait_ok {hash : List Args → Nat} {g : Generics} {v : Vis} {i : ItemImpl} {t : MockTrait}
    (h : mockTrait hash g v i = .ok t) :
    i.trait = some t.path ∧ t.attrs = i.attrs ∧ t.ssName = ssNameOf hash t.path ∧
    (∀ f, .fn f ∈ i.items → ∃ m ∈ t.methods, methOf g (some t.ssName) v f.attrs f.qual f.sig = .ok m) ∧
    (∀ m ∈ t.methods, m.trait = some t.ssName) ∧ selfPathOf i.selfTy = .ok t.selfPath := by
  unfold mockTrait at h
  split at h
  · simp at h
  · rename_i p hp
    simp only [gen_bind_ok, gen_pure_ok] at h
    obtain ⟨sp, hsp, ms, hms, rfl⟩ := h
    obtain ⟨h1, h2⟩ := traitMethods_mem hms
    exact ⟨hp, rfl, rfl, h1, h2, hsp⟩

theorem selfPath_name {n : Ident} {t : Ty} {s : Seg} (h : selfPathOf t = .ok s) (hn : IsPathTo n t) :
    s.id = n := by
  obtain ⟨lead, segs, args, rfl⟩ := hn
  simp only [selfPathOf, selfPathOf.lastOf, List.getLast?_concat, gen_pure_ok] at h
  rw [← h]; rfl

/-- The code for the calls of a trait's method. -/
theorem trait_meth {mi : MockItemStruct} {items : List Item} (L : Layout mi items) (c : Config)
    {t : MockTrait} (ht : t ∈ mi.traits) (hn : t.selfPath.id = mi.name)
    (hat : ∀ a ∈ t.attrs, c.lets a = true) {m : Meth} (hm : m ∈ t.methods) (hp : m.trait = some t.ssName) (hst : m.isStatic = false)
    (ha : ∀ a ∈ m.attrs, c.lets a = true) :
    HasFn (c.strip items) mi.name (some t.path) m.name (.call [t.ssName ++ "_expectations", m.name]) ∧
    HasFn (c.strip items) mi.name none ("expect_" ++ m.name) (.expect [t.ssName ++ "_expectations", m.name]
      [mi.modname ++ "_" ++ t.ssName, m.innerMod]) := by
  have hp : m.place = [t.ssName ++ "_expectations", m.name] := by rw [Meth.place, hp]
  rw [← hn]
  constructor
  · have := fn_strip (c := c) (fa := (m.call (mi.modname ++ "_" ++ t.ssName)).head) (n := m.name)
      (b := (m.call (mi.modname ++ "_" ++ t.ssName)).body)
      (L.traits t ht _ List.mem_cons_self) (active_format_of c _ _ hat)
      (List.mem_map.2 ⟨m, hm, rfl⟩) (meth_active ha _)
    simpa [Meth.call, hst, Config.body, hp] using this
  · have := fn_strip (c := c) (fa := (m.expect (mi.modname ++ "_" ++ t.ssName)).head)
      (n := "expect_" ++ m.name) (b := (m.expect (mi.modname ++ "_" ++ t.ssName)).body)
      (L.traits t ht _ (List.mem_cons_of_mem _ List.mem_cons_self)) (active_format_of c _ _ hat)
      (List.mem_append.2 (.inl (List.mem_map.2 ⟨m, List.mem_filter.2 ⟨hm, by simp [hst]⟩, rfl⟩)))
      (meth_active ha _)
    simpa [Meth.expect, Config.body, hp] using this

theorem trait_store {mi : MockItemStruct} {items : List Item} (L : Layout mi items) (c : Config)
    (hs : c.active (mainAttrs mi) = true)
    {t : MockTrait} (ht : t ∈ uniqueTraits [] mi.traits) (hat : ∀ a ∈ t.attrs, c.lets a = true) {m : Meth}
    (hm : m ∈ t.methods) (hst : m.isStatic = false) (ha : ∀ a ∈ m.attrs, c.lets a = true) :
    IsStore (c.strip items) mi.name [t.ssName ++ "_expectations", m.name]
      [mi.modname ++ "_" ++ t.ssName, m.innerMod] ∧
    HasModule (c.strip items) [mi.modname ++ "_" ++ t.ssName, m.innerMod] := by
  have hsub : ({ attrs := t.attrs, methods := t.methods, modname := mi.modname ++ "_" ++ t.ssName
                 name := mi.name ++ "_" ++ t.ssName
                 fieldname := t.ssName ++ "_expectations" } : SubStruct) ∈ mi.substructs :=
    List.mem_map.2 ⟨t, ht, rfl⟩
  have I := L.subs _ hsub
  constructor
  · refine .sub _ _ (mi.name ++ "_" ++ t.ssName) _ _ ?_ (.here _ _ _ m.fn.isMethodGeneric ?_)
    · refine field_strip L.struct hs (fa := noDocAsync t.attrs) ?_ (active_format_of c _ _ hat)
      simp only [mainFields, List.mem_append, List.mem_map]
      refine .inl (.inl ⟨_, List.mem_filter.2 ⟨hsub, ?_⟩, rfl⟩)
      simp only [SubStruct.allStatic, Bool.not_eq_true', List.all_eq_false]
      exact ⟨m, hm, by simp [hst]⟩
    · refine field_strip I.struct (active_format_of c _ _ hat)
        (fa := (m.field (mi.modname ++ "_" ++ t.ssName)).attrs) ?_ (meth_active ha _)
      simp only [fieldDefinitions, List.mem_append, List.mem_map]
      exact .inl ⟨m, List.mem_filter.2 ⟨hm, by simp [hst]⟩, rfl⟩
  · exact module_strip I.mod (active_format_of c _ _ hat) (List.mem_map.2 ⟨m, hm, rfl⟩) (meth_active ha _)

theorem mapM_split {α β : Type} {f : α → Gen β} : ∀ {pre post : List α} {a : α} {m : List β},
    (pre ++ a :: post).mapM f = .ok m → ∃ pre' b post', m = pre' ++ b :: post' ∧ f a = .ok b ∧
      pre.mapM f = .ok pre'
  | [], post, a, m, h => by
    simp only [List.nil_append, List.mapM_cons, gen_bind_ok, gen_pure_ok] at h
    obtain ⟨b, hb, post', _, rfl⟩ := h
    exact ⟨[], b, post', rfl, hb, rfl⟩
  | x :: pre, post, a, m, h => by
    simp only [List.cons_append, List.mapM_cons, gen_bind_ok, gen_pure_ok] at h
    obtain ⟨y, hy, r, hr, rfl⟩ := h
    obtain ⟨pre', b, post', rfl, hb, hp⟩ := mapM_split hr
    exact ⟨y :: pre', b, post', rfl, hb, by simp [List.mapM_cons, hy, hp, bind, Except.bind, pure, Except.pure]⟩

/-- C52 for the methods of traits.  If a trait is implemented more than once (for different arguments of the
mock), all copies use the stores of the first: `i` is any copy and `i₀` the first. -/
theorem C52_trait (hash : List Args → Nat) (m : MockableStruct) (items : List Item)
    (h : expandStruct hash m = .ok items) (c : Config) (hs : ∀ a ∈ m.attrs, c.lets a = true)
    (p : TraitPath) (pre post : List ItemImpl) (i₀ i : ItemImpl) (hm : m.impls = pre ++ i₀ :: post)
    (hi : i ∈ m.impls) (hp₀ : i₀.trait = some p) (hp : i.trait = some p) (hty : IsPathTo m.name i.selfTy)
    (hfirst : ∀ j ∈ pre, j.trait ≠ some p) (f₀ f : ImplFn) (hf₀ : .fn f₀ ∈ i₀.items) (hf : .fn f ∈ i.items)
    (hn : f₀.sig.ident = f.sig.ident) (h₀ : IsMethod f₀.sig.inputs) (h₁ : IsMethod f.sig.inputs)
    (ha : ∀ l ∈ [i₀.attrs, f₀.attrs, i.attrs, f.attrs], ∀ a ∈ l, c.lets a = true) :
    ∃ place module,
      HasFn (c.strip items) m.name (some p) f.sig.ident (.call place) ∧
      HasFn (c.strip items) m.name none ("expect_" ++ f.sig.ident) (.expect place module) ∧
      IsStore (c.strip items) m.name place module ∧ HasModule (c.strip items) module := by
  obtain ⟨mi, h1, ⟨L⟩⟩ := expand_steps h
  simp only [mockItemStruct, gen_bind_ok, gen_pure_ok] at h1
  obtain ⟨ms, -, ts, h2, rfl⟩ := h1
  obtain ⟨t, ht, et⟩ := mapM_mem h2 hi
  rw [hm] at h2
  obtain ⟨pre', t₀, post', rfl, et₀, epre⟩ := mapM_split h2
  obtain ⟨a1, a2, a3, a4, -, a5⟩ := mockTrait_ok et
  obtain ⟨b1, b2, b3, b4, -⟩ := mockTrait_ok et₀
  obtain ⟨x, hx, ex⟩ := a4 f hf
  obtain ⟨x₀, hx₀, ex₀⟩ := b4 f₀ hf₀
  obtain ⟨c1, c2, c3, c4⟩ := methOf_ok ex
  obtain ⟨d1, d2, d3, d4⟩ := methOf_ok ex₀
  rw [hp] at a1
  rw [hp₀] at b1
  cases Option.some.inj a1
  have b1 := Option.some.inj b1
  have hss : t₀.ssName = t.ssName := by rw [a3, b3, ← b1]
  have hname : x₀.name = x.name := by rw [c3, d3, hn]
  have nst : ∀ {y : Meth} {g : ImplFn}, (y.isStatic = true ↔ ¬ IsMethod g.sig.inputs) →
      IsMethod g.sig.inputs → y.isStatic = false := by
    intro y g h k
    cases hb : y.isStatic with
    | false => rfl
    | true => exact absurd k (h.1 hb)
  obtain ⟨e1, e2⟩ := trait_meth L c ht (selfPath_name a5 hty) (by rw [a2]; exact ha _ (by simp)) hx c2 (nst c4 h₁)
    (by rw [c1]; exact ha _ (by simp))
  have hu : t₀ ∈ uniqueTraits [] (pre' ++ t₀ :: post') := by
    refine uniqueTraits_first (by simp) ?_
    intro u hu e
    obtain ⟨j, hj, ej⟩ := mapM_mem' epre hu
    have := (mockTrait_ok ej).1
    rw [show u.path = t₀.path from congrArg Prod.fst e, ← b1] at this
    exact hfirst j hj this
  obtain ⟨e3, e4⟩ := trait_store L c (active_format_of c _ _ hs) hu (by rw [b2]; exact ha _ (by simp)) hx₀
    (nst d4 h₀) (by rw [d1]; exact ha _ (by simp))
  have him : x₀.innerMod = x.innerMod := by rw [Meth.innerMod, Meth.innerMod, hname]
  rw [hss, hname, him] at e3
  rw [hss, him] at e4
  rw [c3] at e1 e2 e3
  exact ⟨_, _, e1, e2, e3, e4⟩

theorem string_append_left {a b c : String} (h : a ++ c = b ++ c) : a = b := by
  have := congrArg String.toList h
  simp only [String.toList_append, List.append_cancel_right_eq] at this
  exact String.toList_injective this

theorem string_append_right {a b c : String} (h : a ++ b = a ++ c) : b = c := by
  have := congrArg String.toList h
  simp only [String.toList_append, List.append_cancel_left_eq] at this
  exact String.toList_injective this

theorem trait_static {mi : MockItemStruct} {items : List Item} (L : Layout mi items) (c : Config)
    (hs : c.active (mainAttrs mi) = true) (hacc : Accepted (c.strip items))
    {t : MockTrait} (ht : t ∈ uniqueTraits [] mi.traits) (hname : t.selfPath.id = mi.name)
    (hat : ∀ a ∈ t.attrs, c.lets a = true) {x : Meth} (hx : x ∈ t.methods) (hst : x.isStatic = true) (ha : ∀ a ∈ x.attrs, c.lets a = true) :
    HasFn (c.strip items) mi.name (some t.path) x.name
      (.callStatic [mi.modname ++ "_" ++ t.ssName, x.innerMod]) ∧
    HasFn (c.strip items) mi.name none (x.name ++ "_context")
      (.context [mi.modname ++ "_" ++ t.ssName, x.innerMod]) ∧
    HasModule (c.strip items) [mi.modname ++ "_" ++ t.ssName, x.innerMod] ∧
    ¬ ∃ md, IsStore (c.strip items) mi.name [t.ssName ++ "_expectations", x.name] md := by
  have htm := uniqueTraits_sub ht
  have hsub : ({ attrs := t.attrs, methods := t.methods, modname := mi.modname ++ "_" ++ t.ssName
                 name := mi.name ++ "_" ++ t.ssName
                 fieldname := t.ssName ++ "_expectations" } : SubStruct) ∈ mi.substructs :=
    List.mem_map.2 ⟨t, ht, rfl⟩
  have I := L.subs _ hsub
  refine ⟨?_, ?_, ?_, ?_⟩
  · have := fn_strip (c := c) (fa := (x.call (mi.modname ++ "_" ++ t.ssName)).head) (n := x.name)
      (b := (x.call (mi.modname ++ "_" ++ t.ssName)).body)
      (L.traits t htm _ List.mem_cons_self) (active_format_of c _ _ hat)
      (List.mem_map.2 ⟨x, hx, rfl⟩) (meth_active ha _)
    simpa [Meth.call, hst, Config.body, hname] using this
  · have := fn_strip (c := c) (fa := (x.contextFn (mi.modname ++ "_" ++ t.ssName)).head)
      (n := x.name ++ "_context") (b := (x.contextFn (mi.modname ++ "_" ++ t.ssName)).body)
      (L.traits t htm _ (List.mem_cons_of_mem _ List.mem_cons_self)) (active_format_of c _ _ hat)
      (List.mem_append.2 (.inr (List.mem_map.2 ⟨x, List.mem_filter.2 ⟨hx, hst⟩, rfl⟩)))
      (meth_active ha _)
    simpa [Meth.contextFn, Config.body, hname] using this
  · exact module_strip I.mod (active_format_of c _ _ hat) (List.mem_map.2 ⟨x, hx, rfl⟩) (meth_active ha _)
  · rintro ⟨md, k⟩
    have hstr := struct_strip (c := c) L.struct hs
    obtain ⟨fld, hfld, ⟨_, _, -, en⟩ | ⟨s', p', _, ety, en, k⟩⟩ := (isStore_iff hacc hstr _).1 ⟨md, k⟩
    · simp at en
    obtain ⟨e1, rfl⟩ := List.cons.inj en
    obtain ⟨hfld, -⟩ := List.mem_filter.1 hfld
    simp only [mainFields, fieldDefinitions, List.mem_append, List.mem_map] at hfld
    rcases hfld with (⟨s, hss, rfl⟩ | ⟨y, hy, rfl⟩) | hfld
    · obtain ⟨u, -, rfl⟩ := List.mem_map.1 (List.mem_filter.1 hss).1
      have e2 : t.ssName = u.ssName := string_append_left e1
      cases ety
      dsimp only at k
      rw [← e2] at k
      have hsub' := struct_strip (c := c) I.struct (active_format_of c _ _ hat)
      dsimp only at hsub'
      obtain ⟨fld, hfld, ⟨_, _, ety, en⟩ | ⟨_, _, _, _, en, k⟩⟩ := (isStore_iff hacc hsub' _).1 ⟨_, k⟩
      · obtain ⟨hfld, hact⟩ := List.mem_filter.1 hfld
        simp only [fieldDefinitions, List.mem_append, List.mem_map] at hfld
        rcases hfld with ⟨y, hy, rfl⟩ | hfld
        · obtain ⟨hy, hys⟩ := List.mem_filter.1 hy
          have hn := hacc.fns _ _ _ _ (impl_strip (c := c) (L.traits t htm _ List.mem_cons_self)
            (active_format_of c _ _ hat))
          rw [List.map_map] at hn
          have mem : ∀ z ∈ t.methods, c.active (z.call (mi.modname ++ "_" ++ t.ssName)).attrs = true →
              z.call (mi.modname ++ "_" ++ t.ssName) ∈
                (t.methods.map (·.call (mi.modname ++ "_" ++ t.ssName))).filter
                  fun x => c.active x.attrs := fun z hz ha =>
            List.mem_filter.2 ⟨List.mem_map.2 ⟨z, hz, rfl⟩, ha⟩
          have := nodup_map_eq hn (mem x hx (meth_active ha _))
            (mem y hy (by rw [← hact]; exact active_format c _ _ _)) (by
              simpa [Meth.field, Meth.call] using en)
          have := congrArg FnItem.body this
          simp only [Meth.call, hst, if_true, if_neg (show ¬ y.isStatic = true by simpa using hys)] at this
          cases this
        · rw [(phantoms_are L.phantom _ hfld).2.choose_spec] at ety
          cases ety
      · obtain ⟨-, rfl⟩ := List.cons.inj en
        cases k
    · cases ety
    · rw [(phantoms_are L.phantom _ hfld).2.choose_spec] at ety
      cases ety

/-- C52 for the static methods of traits: like `C52_static`, for the first copy of the trait. -/
theorem C52_trait_static (hash : List Args → Nat) (m : MockableStruct) (items : List Item)
    (h : expandStruct hash m = .ok items) (c : Config) (hs : ∀ a ∈ m.attrs, c.lets a = true)
    (hacc : Accepted (c.strip items)) (p : TraitPath) (pre post : List ItemImpl) (i : ItemImpl)
    (hm : m.impls = pre ++ i :: post) (hp : i.trait = some p) (hfirst : ∀ j ∈ pre, j.trait ≠ some p)
    (hty : IsPathTo m.name i.selfTy)
    (f : ImplFn) (hf : .fn f ∈ i.items) (hi : ¬ IsMethod f.sig.inputs)
    (ha : ∀ l ∈ [i.attrs, f.attrs], ∀ a ∈ l, c.lets a = true) :
    ∃ module,
      HasFn (c.strip items) m.name (some p) f.sig.ident (.callStatic module) ∧
      HasFn (c.strip items) m.name none (f.sig.ident ++ "_context") (.context module) ∧
      HasModule (c.strip items) module ∧
      ¬ ∃ md, IsStore (c.strip items) m.name [ssNameOf hash p ++ "_expectations", f.sig.ident] md := by
  obtain ⟨mi, h1, ⟨L⟩⟩ := expand_steps h
  simp only [mockItemStruct, gen_bind_ok, gen_pure_ok] at h1
  obtain ⟨ms, -, ts, h2, rfl⟩ := h1
  rw [hm] at h2
  obtain ⟨pre', t, post', rfl, et, epre⟩ := mapM_split h2
  obtain ⟨b1, b2, b3, b4, -, b5⟩ := mockTrait_ok et
  obtain ⟨x, hx, ex⟩ := b4 f hf
  obtain ⟨d1, d2, d3, d4⟩ := methOf_ok ex
  rw [hp] at b1
  cases Option.some.inj b1
  have hu : t ∈ uniqueTraits [] (pre' ++ t :: post') := by
    refine uniqueTraits_first (by simp) ?_
    intro u hu e
    obtain ⟨j, hj, ej⟩ := mapM_mem' epre hu
    have := (mockTrait_ok ej).1
    rw [show u.path = t.path from congrArg Prod.fst e] at this
    exact hfirst j hj this
  have := trait_static L c (active_format_of c _ _ hs) hacc hu (selfPath_name b5 hty) (by rw [b2]; exact ha _ (by simp)) hx
    (d4.2 hi) (by rw [d1]; exact ha _ (by simp))
  rw [← b3, ← d3]
  exact ⟨_, this⟩

theorem hasFn_origin {c : Config} {l : List Item} {s : Ident} {t : Option TraitPath} {n : Ident} {b : Body}
    (h : HasFn (c.strip l) s t n b) :
    ∃ a fs, .impl a s t fs ∈ l ∧ c.active a.attrs = true ∧ ∃ f ∈ fs, c.active f.attrs = true ∧ f.name = n ∧
      c.body f.body = b := by
  obtain ⟨a, fs, fa, h, hf⟩ := h
  obtain ⟨x, hx, e⟩ := mem_strip.1 h
  cases x with
  | impl a' s' t' fs' =>
    simp only [Config.item] at e
    split at e
    · rename_i ha
      cases e
      obtain ⟨f, hm, e⟩ := List.mem_map.1 hf
      obtain ⟨hm, hfa⟩ := List.mem_filter.1 hm
      cases e
      exact ⟨_, _, hx, ha, f, hm, hfa, rfl, rfl⟩
    · cases e
  | mod => simp only [Config.item] at e; split at e <;> cases e
  | struct => simp only [Config.item] at e; split at e <;> cases e
  | dflt => simp only [Config.item] at e; split at e <;> cases e
  | debug => cases e

/-- The methods that call a store. -/
theorem call_origin {mi : MockItemStruct} {items : List Item} (L : Layout mi items) {c : Config}
    (hnone : ∀ m ∈ mi.methods, m.trait = none)
    (hsome : ∀ t ∈ mi.traits, ∀ m ∈ t.methods, m.trait = some t.ssName) {s : Ident}
    {t : Option TraitPath} {n : Ident} {p : List Ident} (h : HasFn (c.strip items) s t n (.call p)) :
    (t = none ∧ p = [n]) ∨ ∃ u ∈ mi.traits, t = some u.path ∧ c.active (noDocAsync u.attrs) = true ∧
      p = [u.ssName ++ "_expectations", n] := by
  obtain ⟨a, fs, hi, ha, f, hf, -, rfl, hb⟩ := hasFn_origin h
  have call : ∀ {m : Meth} {md : Ident}, c.body (m.call md).body = .call p → p = m.place := by
    intro m md h
    unfold Meth.call at h
    dsimp only at h
    split at h
    · cases h
    · cases h; rfl
  rcases L.impls _ _ _ _ hi with ⟨-, -, rfl, rfl⟩ | ⟨-, s', -, -, rfl⟩ | ⟨u, hu, hx⟩
  · left
    simp only [mainFns, List.mem_append, List.mem_map, List.mem_singleton, MockItemStruct.newMethod] at hf
    rcases hf with (((⟨m, hm, rfl⟩ | ⟨m, hm, rfl⟩) | ⟨m, hm, rfl⟩) | rfl) | hf
    · refine ⟨rfl, ?_⟩
      rw [call hb, Meth.place, hnone m hm]
      rfl
    · cases hb
    · cases hb
    · cases hb
    · split at hf
      · cases hf
      · cases List.mem_singleton.1 hf; cases hb
  · cases List.mem_singleton.1 hf; cases hb
  · right
    simp only [MockTrait.implItems, List.mem_cons, Item.impl.injEq, List.not_mem_nil, or_false] at hx
    rcases hx with ⟨rfl, -, rfl, rfl⟩ | ⟨rfl, -, rfl, rfl⟩
    · obtain ⟨m, hm, rfl⟩ := List.mem_map.1 hf
      refine ⟨u, hu, rfl, ?_, ?_⟩
      · rw [← ha]; exact active_format c _ _ _
      · rw [call hb, Meth.place, hsome u hu m hm]
        rfl
    · rcases List.mem_append.1 hf with hf | hf <;> obtain ⟨m, -, rfl⟩ := List.mem_map.1 hf <;> cases hb

/-- Active traits with the same internal name are the same trait. -/
theorem ssName_inj {mi : MockItemStruct} {items : List Item} (L : Layout mi items) {c : Config}
    (hacc : Accepted (c.strip items)) (hash : List Args → Nat)
    (hss : ∀ t ∈ mi.traits, t.ssName = ssNameOf hash t.path) {t u : MockTrait} (ht : t ∈ mi.traits)
    (hu : u ∈ mi.traits) (hat : c.active (noDocAsync t.attrs) = true)
    (hau : c.active (noDocAsync u.attrs) = true) (e : t.ssName = u.ssName) : t.path = u.path := by
  have rep : ∀ {t}, t ∈ mi.traits → c.active (noDocAsync t.attrs) = true →
      ∃ r ∈ (uniqueTraits [] mi.traits).filter (fun t => c.active (noDocAsync t.attrs)),
        r.path = t.path ∧ r.ssName = t.ssName := by
    intro t ht ha
    rcases uniqueTraits_rep (hs := []) ht with h | ⟨r, hr, e⟩
    · cases h
    · have hp : r.path = t.path := congrArg Prod.fst e
      have hk : noDocAsync r.attrs = noDocAsync t.attrs := congrArg Prod.snd e
      refine ⟨r, List.mem_filter.2 ⟨hr, by rw [hk]; exact ha⟩, hp, ?_⟩
      rw [hss r (uniqueTraits_sub hr), hss t ht, hp]
  obtain ⟨r, hr, r1, r2⟩ := rep ht hat
  obtain ⟨q, hq, q1, q2⟩ := rep hu hau
  have hn := (L.names c).nodup hacc.structs
  rw [MockItemStruct.substructs, List.filter_map, List.map_map] at hn
  have : r = q := nodup_map_eq hn hr hq (by
    simp only [Function.comp]
    rw [r2, q2, e])
  rw [← r1, ← q1, this]

/-- C52: no two methods share a store: two calls that use the same one are calls of methods of the same
name of the same trait (implemented for different arguments of the mock), or both inherent. -/
theorem C52_unshared (hash : List Args → Nat) (m : MockableStruct) (items : List Item)
    (h : expandStruct hash m = .ok items) (c : Config) (hacc : Accepted (c.strip items))
    (t t' : Option TraitPath) (n n' : Ident) (p : List Ident)
    (h₁ : HasFn (c.strip items) m.name t n (.call p)) (h₂ : HasFn (c.strip items) m.name t' n' (.call p)) :
    n = n' ∧ t = t' := by
  obtain ⟨mi, h1, ⟨L⟩⟩ := expand_steps h
  simp only [mockItemStruct, gen_bind_ok, gen_pure_ok] at h1
  obtain ⟨ms, k1, ts, k2, rfl⟩ := h1
  have hnone : ∀ x ∈ ms, x.trait = none := fun x hx => by
    obtain ⟨f, -, e⟩ := mapM_mem' k1 hx
    exact (methOf_ok e).2.1
  have htr : ∀ x ∈ ts, x.ssName = ssNameOf hash x.path ∧ ∀ y ∈ x.methods, y.trait = some x.ssName :=
    fun x hx => by
      obtain ⟨i, -, e⟩ := mapM_mem' k2 hx
      exact ⟨(mockTrait_ok e).2.2.1, (mockTrait_ok e).2.2.2.2.1⟩
  rcases call_origin L hnone (fun x hx => (htr x hx).2) h₁ with ⟨rfl, rfl⟩ | ⟨u, hu, rfl, au, rfl⟩ <;>
    rcases call_origin L hnone (fun x hx => (htr x hx).2) h₂ with ⟨rfl, e⟩ | ⟨v, hv, rfl, av, e⟩
  · exact ⟨by simpa using e, rfl⟩
  · simp at e
  · simp at e
  · simp only [List.cons.injEq, and_true] at e
    refine ⟨e.2, ?_⟩
    rw [ssName_inj L hacc hash (fun x hx => (htr x hx).1) hu hv au av (string_append_left e.1)]

/-! ## Examples -/

/-- `Accepted`, computed. -/
def accepts (items : List Item) : Bool :=
  decide (items.filterMap structName).Nodup && decide (items.filterMap modName).Nodup &&
  items.all fun
    | .mod _ _ l => decide (l.map WithAttrs.val).Nodup
    | .struct _ _ l => decide (l.map Field.name).Nodup
    | .dflt _ _ _ => true
    | .debug _ => true
    | .impl _ _ _ l => decide (l.map FnItem.name).Nodup

theorem accepted_of {items : List Item} (h : accepts items = true) : Accepted items := by
  simp only [accepts, Bool.and_eq_true, decide_eq_true_eq, List.all_eq_true] at h
  obtain ⟨⟨h1, h2⟩, h3⟩ := h
  exact ⟨h1, h2, fun a n l k => by simpa using h3 _ k, fun a n l k => by simpa using h3 _ k,
    fun a n t l k => by simpa using h3 _ k⟩

/-- A receiver `&self`. -/
def selfArg : FnArg := .receiver (some none) false false (.name "Self")

/-- ```
mock! {
  Foo<T> {
    fn foo(&self);
    #[cfg(unix)] fn bar(&self);
    #[cfg(windows)] fn bar(&self);
    fn stat();
  }
  impl A for Foo<u8> { fn foo(&self); fn sa(); }
  #[cfg(windows)] impl A for Foo<u16> { fn foo(&self); }
  impl B for Foo<T> { fn sb(); }
  impl A for Foo<u32> { fn foo(&self); fn sa(); }
}
``` -/
def exStruct : MockableStruct where
  name := "MockFoo"
  generics := { angle := true, params := [.ty { id := "T" }] }
  methods := [
    { sig := { ident := "foo", inputs := [selfArg] } },
    { attrs := [.plain [] "cfg" ["unix"]], sig := { ident := "bar", inputs := [selfArg] } },
    { attrs := [.plain [] "cfg" ["windows"]], sig := { ident := "bar", inputs := [selfArg] } },
    { sig := { ident := "stat" } }]
  impls := [
    { trait := some { segs := [.of "A"] }, selfTy := .path false [.mk "MockFoo" (.angle [.ty (.name "u8")])]
      items := [.fn { sig := { ident := "foo", inputs := [selfArg] } }, .fn { sig := { ident := "sa" } }] },
    { attrs := [.plain [] "cfg" ["windows"]]
      trait := some { segs := [.of "A"] }, selfTy := .path false [.mk "MockFoo" (.angle [.ty (.name "u16")])]
      items := [.fn { sig := { ident := "foo", inputs := [selfArg] } }] },
    { trait := some { segs := [.of "B"] }, selfTy := .path false [.mk "MockFoo" (.angle [.ty (.name "T")])]
      items := [.fn { sig := { ident := "sb" } }] },
    { trait := some { segs := [.of "A"] }, selfTy := .path false [.mk "MockFoo" (.angle [.ty (.name "u32")])]
      items := [.fn { sig := { ident := "foo", inputs := [selfArg] } }, .fn { sig := { ident := "sa" } }] }]

/-- Unix. -/
def unix : Config where
  lets a := a ≠ .plain [] "cfg" ["windows"]
  only a h := by
    simp only [ne_eq, decide_not, Bool.not_eq_false', decide_eq_true_eq] at h
    exact .inl ⟨_, h⟩

example : (expandStruct (fun _ => 0) exStruct).toOption.map (fun l => accepts (unix.strip l)) =
    some true := by decide +kernel

/-- The stores of the example. -/
example : ∃ items, expandStruct (fun _ => 0) exStruct = .ok items ∧
    Checkpoints (unix.strip items) "MockFoo" [["A_expectations", "foo"], ["foo"], ["bar"]] := by
  have h : (expandStruct (fun _ => 0) exStruct).toOption.isSome = true := by decide +kernel
  cases he : expandStruct (fun _ => 0) exStruct with
  | error e => rw [he] at h; cases h
  | ok items =>
    refine ⟨items, rfl, ?_⟩
    obtain ⟨mi, h1, ⟨L⟩⟩ := expand_steps he
    have e1 : (mockItemStruct (fun _ => 0) exStruct).toOption.map (fun mi =>
        (mi.name, unix.active (mainAttrs mi),
          subPlaces unix (liveSubs unix mi) ++ places (liveMeths unix mi.methods))) =
        some ("MockFoo", true, [["A_expectations", "foo"], ["foo"], ["bar"]]) := by decide +kernel
    rw [h1] at e1
    simp only [Except.toOption, Option.map_some, Option.some.injEq, Prod.mk.injEq] at e1
    have := (main_orders L unix e1.2.1).1
    rwa [e1.2.2, e1.1] at this

/-- The first copy of the trait does not have the method. -/
def exMissing : MockableStruct where
  name := "MockFoo"
  generics := { angle := true, params := [.ty { id := "T" }] }
  impls := [
    { trait := some { segs := [.of "A"] }, selfTy := .path false [.mk "MockFoo" (.angle [.ty (.name "u8")])]
      items := [.fn { sig := { ident := "foo", inputs := [selfArg] } }] },
    { trait := some { segs := [.of "A"] }, selfTy := .path false [.mk "MockFoo" (.angle [.ty (.name "u32")])]
      items := [.fn { sig := { ident := "foo", inputs := [selfArg] } },
        .fn { sig := { ident := "bar", inputs := [selfArg] } }] }]

theorem stores_iff {mi : MockItemStruct} {items : List Item} (L : Layout mi items) {c : Config}
    (ha : c.active (mainAttrs mi) = true) (hacc : Accepted (c.strip items)) (p : List Ident) :
    p ∈ subPlaces c (liveSubs c mi) ++ places (liveMeths c mi.methods) ↔
      ∃ md, IsStore (c.strip items) mi.name p md := by
  obtain ⟨a, fs, k3, k4⟩ := (main_orders L c ha).2
  exact (holds_mem hacc k4 p).trans (isStore_iff hacc k3 p).symm

/-- `HasFn`, computed. -/
def hasFn (items : List Item) (s : Ident) (t : Option TraitPath) (n : Ident) (b : Body) : Bool :=
  items.any fun
    | .impl _ s' t' fs => s' = s && t' = t && fs.any fun f => f.name = n && f.body = b
    | _ => false

theorem hasFn_of {items : List Item} {s : Ident} {t : Option TraitPath} {n : Ident} {b : Body}
    (h : hasFn items s t n b = true) : HasFn items s t n b := by
  obtain ⟨x, hx, h⟩ := List.any_eq_true.1 h
  cases x with
  | impl a s' t' fs =>
    simp only [Bool.and_eq_true, decide_eq_true_eq, List.any_eq_true] at h
    obtain ⟨⟨rfl, rfl⟩, ⟨fa, n', b'⟩, hf, rfl, rfl⟩ := h
    exact ⟨a, fs, fa, hx, hf⟩
  | _ => cases h

/-- The restriction in `C52_trait` is needed: with a trait implemented for `MockFoo<u8>` and for
`MockFoo<u32>`, the code for a (provided) method that only the second has uses a field that does not
exist. -/
theorem C52_missing : ∃ items, expandStruct (fun _ => 0) exMissing = .ok items ∧
    HasFn (unix.strip items) "MockFoo" (some { segs := [.of "A"] }) "bar" (.call ["A_expectations", "bar"]) ∧
    ¬ ∃ md, IsStore (unix.strip items) "MockFoo" ["A_expectations", "bar"] md := by
  have h : (expandStruct (fun _ => 0) exMissing).toOption.map (fun l => (accepts (unix.strip l),
      hasFn (unix.strip l) "MockFoo" (some { segs := [.of "A"] }) "bar" (.call ["A_expectations", "bar"]))) =
      some (true, true) := by decide +kernel
  cases he : expandStruct (fun _ => 0) exMissing with
  | error e => rw [he] at h; cases h
  | ok items =>
    rw [he] at h
    simp only [Except.toOption, Option.map_some, Option.some.injEq, Prod.mk.injEq] at h
    refine ⟨items, rfl, hasFn_of h.2, ?_⟩
    obtain ⟨mi, h1, ⟨L⟩⟩ := expand_steps he
    have e1 : (mockItemStruct (fun _ => 0) exMissing).toOption.map (fun mi =>
        (mi.name, unix.active (mainAttrs mi),
          subPlaces unix (liveSubs unix mi) ++ places (liveMeths unix mi.methods))) =
        some ("MockFoo", true, [["A_expectations", "foo"]]) := by decide +kernel
    rw [h1] at e1
    simp only [Except.toOption, Option.map_some, Option.some.injEq, Prod.mk.injEq] at e1
    have := stores_iff L e1.2.1 (accepted_of h.1) ["A_expectations", "bar"]
    rw [e1.2.2, e1.1] at this
    rw [← this]
    decide

end Mockall.Props
