import Verif.Spec.Struct
import Verif.Lemmas.Gen

/-! Lemmas about the code generated for a struct. -/

namespace Mockall.Props

open Derive Spec

/-! ## Lists -/

theorem nodup_filterMap_eq {α β : Type} {f : α → Option β} : ∀ {l : List α} {x y : α} {b : β},
    (l.filterMap f).Nodup → x ∈ l → y ∈ l → f x = some b → f y = some b → x = y
  | a :: l, x, y, b, h, hx, hy, ex, ey => by
    have mem : ∀ z ∈ l, f z = some b → b ∈ l.filterMap f := fun z hz e =>
      List.mem_filterMap.2 ⟨z, hz, e⟩
    cases ha : f a with
    | none =>
      rw [List.filterMap_cons_none ha] at h
      rcases List.mem_cons.1 hx with rfl | hx
      · rw [ha] at ex; cases ex
      rcases List.mem_cons.1 hy with rfl | hy
      · rw [ha] at ey; cases ey
      exact nodup_filterMap_eq h hx hy ex ey
    | some c =>
      rw [List.filterMap_cons_some ha, List.nodup_cons] at h
      rcases List.mem_cons.1 hx with e | hx <;> rcases List.mem_cons.1 hy with e' | hy
      · rw [e, e']
      · rw [e, ha] at ex; cases ex; exact absurd (mem y hy ey) h.1
      · rw [e', ha] at ey; cases ey; exact absurd (mem x hx ex) h.1
      · exact nodup_filterMap_eq h.2 hx hy ex ey

theorem nodup_map_eq {α β : Type} {f : α → β} {l : List α} {x y : α} (h : (l.map f).Nodup) (hx : x ∈ l)
    (hy : y ∈ l) (e : f x = f y) : x = y := by
  refine nodup_filterMap_eq (f := fun a => some (f a)) (b := f y) ?_ hx hy (by rw [e]) rfl
  rwa [List.filterMap_eq_map']

theorem mapM_mem {α β : Type} {f : α → Gen β} : ∀ {l : List α} {m : List β} {a : α},
    l.mapM f = .ok m → a ∈ l → ∃ b ∈ m, f a = .ok b
  | x :: l, m, a, h, ha => by
    simp only [List.mapM_cons, gen_bind_ok, gen_pure_ok] at h
    obtain ⟨b, hb, m', hm, rfl⟩ := h
    rcases List.mem_cons.1 ha with rfl | ha
    · exact ⟨b, List.mem_cons_self, hb⟩
    · obtain ⟨c, hc, e⟩ := mapM_mem hm ha
      exact ⟨c, List.mem_cons_of_mem _ hc, e⟩

theorem mapM_mem' {α β : Type} {f : α → Gen β} : ∀ {l : List α} {m : List β} {b : β},
    l.mapM f = .ok m → b ∈ m → ∃ a ∈ l, f a = .ok b
  | [], m, b, h, hb => by
    simp only [List.mapM_nil, gen_pure_ok] at h
    subst h; cases hb
  | x :: l, m, b, h, hb => by
    simp only [List.mapM_cons, gen_bind_ok, gen_pure_ok] at h
    obtain ⟨c, hc, m', hm, rfl⟩ := h
    rcases List.mem_cons.1 hb with rfl | hb
    · exact ⟨x, List.mem_cons_self, hc⟩
    · obtain ⟨a, ha, e⟩ := mapM_mem' hm hb
      exact ⟨a, List.mem_cons_of_mem _ ha, e⟩

/-! ## Conditional compilation -/

/-- Whether something is compiled does not depend on which of the other attributes are emitted. -/
theorem active_format (c : Config) (f f' : AttrFormatter) (l : List Attr) :
    c.active (f.format l) = c.active (f'.format l) := by
  have key : ∀ f f' : AttrFormatter, c.active (f.format l) = true → c.active (f'.format l) = true := by
    intro f f' h
    simp only [Config.active, List.all_eq_true, AttrFormatter.format, List.mem_filter] at h ⊢
    rintro a ⟨ha, hk⟩
    cases hl : c.lets a with
    | true => rfl
    | false =>
      have : f.keep a = true := by
        rcases c.only a hl with ⟨args, rfl⟩ | ⟨p, as, rfl⟩
        · simp [AttrFormatter.keep, isConcretize, Attr.last]
        · simpa [AttrFormatter.keep, Attr.last] using hk
      rw [← hl]
      exact h a ⟨ha, this⟩
  cases h : c.active (f.format l) with
  | true => rw [key f f' h]
  | false =>
    cases h' : c.active (f'.format l) with
    | true => rw [key f' f h'] at h; cases h
    | false => rfl

theorem active_format_of (c : Config) (f : AttrFormatter) (l : List Attr) (h : ∀ a ∈ l, c.lets a = true) :
    c.active (f.format l) = true := by
  simp only [Config.active, List.all_eq_true, AttrFormatter.format, List.mem_filter]
  exact fun a ha => h a ha.1

theorem mem_strip {c : Config} {l : List Item} {x : Item} :
    x ∈ c.strip l ↔ ∃ y ∈ l, c.item y = some x := List.mem_filterMap

theorem struct_strip {c : Config} {l : List Item} {a n fs} (h : .struct a n fs ∈ l)
    (ha : c.active a.attrs = true) : .struct a n (fs.filter fun x => c.active x.attrs) ∈ c.strip l :=
  mem_strip.2 ⟨_, h, by simp [Config.item, ha]⟩

theorem mod_strip {c : Config} {l : List Item} {a n fs} (h : .mod a n fs ∈ l)
    (ha : c.active a = true) : .mod a n (fs.filter fun x => c.active x.attrs) ∈ c.strip l :=
  mem_strip.2 ⟨_, h, by simp [Config.item, ha]⟩

theorem impl_strip {c : Config} {l : List Item} {a s t fs} (h : .impl a s t fs ∈ l)
    (ha : c.active a.attrs = true) : .impl (c.head a) s t ((fs.filter fun x => c.active x.attrs).map fun f =>
      { f with body := c.body f.body }) ∈ c.strip l :=
  mem_strip.2 ⟨_, h, by simp [Config.item, ha]⟩

theorem fn_strip {c : Config} {l : List Item} {a s t fs} {fa n b} (h : .impl a s t fs ∈ l)
    (ha : c.active a.attrs = true) (hf : ⟨fa, n, b⟩ ∈ fs) (hb : c.active fa.attrs = true) :
    HasFn (c.strip l) s t n (c.body b) := by
  refine ⟨c.head a, _, fa, mem_strip.2 ⟨_, h, by simp [Config.item, ha]; rfl⟩, ?_⟩
  simp only [List.mem_map, List.mem_filter]
  exact ⟨⟨fa, n, b⟩, ⟨hf, hb⟩, rfl⟩

theorem module_strip {c : Config} {l : List Item} {a m ms} {ia i} (h : .mod a m ms ∈ l)
    (ha : c.active a = true) (hi : ⟨ia, i⟩ ∈ ms) (hb : c.active ia = true) :
    HasModule (c.strip l) [m, i] :=
  ⟨a, m, _, ia, i, mod_strip h ha, List.mem_filter.2 ⟨hi, hb⟩, rfl⟩

theorem field_strip {c : Config} {l : List Item} {a s fs} {fa f t} (h : .struct a s fs ∈ l)
    (ha : c.active a.attrs = true) (hf : ⟨fa, f, t⟩ ∈ fs) (hb : c.active fa = true) :
    HasField (c.strip l) s f t :=
  ⟨a, _, fa, struct_strip h ha, List.mem_filter.2 ⟨hf, hb⟩⟩

theorem struct_unique {S : List Item} (h : Accepted S) {a a' s fs fs'} (k : .struct a s fs ∈ S)
    (k' : .struct a' s fs' ∈ S) : fs = fs' := by
  have := nodup_filterMap_eq (f := structName) (b := s) h.structs k k' rfl rfl
  cases this; rfl

/-! ## Stores -/

/-- The places of the stores among the fields. -/
def FieldStore (S : List Item) (fs : List Field) (p : List Ident) : Prop :=
  ∃ fld ∈ fs, (∃ m g, fld.ty = .store m g ∧ p = [fld.name]) ∨
    ∃ s' p' m, fld.ty = .sub s' ∧ p = fld.name :: p' ∧ IsStore S s' p' m

theorem isStore_iff {S : List Item} (h : Accepted S) {a s fs} (k : .struct a s fs ∈ S) (p : List Ident) :
    (∃ m, IsStore S s p m) ↔ FieldStore S fs p := by
  constructor
  · rintro ⟨m, hs⟩
    cases hs with
    | here _ f _ g hf =>
      obtain ⟨a', fs', fa, k', hf⟩ := hf
      cases struct_unique h k k'
      exact ⟨_, hf, .inl ⟨_, _, rfl, rfl⟩⟩
    | sub _ f s' p' _ hf hp =>
      obtain ⟨a', fs', fa, k', hf⟩ := hf
      cases struct_unique h k k'
      exact ⟨_, hf, .inr ⟨_, _, _, rfl, rfl, hp⟩⟩
  · rintro ⟨⟨fa, f, t⟩, hf, ⟨m, g, rfl, rfl⟩ | ⟨s', p', m, rfl, rfl, hp⟩⟩
    · exact ⟨m, .here _ _ _ _ ⟨_, _, _, k, hf⟩⟩
    · exact ⟨m, .sub _ _ _ _ _ ⟨_, _, _, k, hf⟩ hp⟩

theorem fieldStore_cons {S : List Item} {f : Field} {fs : List Field} {p : List Ident} :
    FieldStore S (f :: fs) p ↔ FieldStore S [f] p ∨ FieldStore S fs p := by
  simp only [FieldStore, List.mem_cons, List.not_mem_nil, or_false, exists_eq_left]
  constructor
  · rintro ⟨x, rfl | hx, h⟩
    · exact .inl h
    · exact .inr ⟨x, hx, h⟩
  · rintro (h | ⟨x, hx, h⟩)
    · exact ⟨f, .inl rfl, h⟩
    · exact ⟨x, .inr hx, h⟩

theorem holds_mem {S : List Item} (h : Accepted S) {fs : List Field} {l : List (List Ident)}
    (k : Holds S fs l) (p : List Ident) : p ∈ l ↔ FieldStore S fs p := by
  induction k generalizing p with
  | nil => simp [FieldStore]
  | store _ ih =>
    rw [fieldStore_cons, ← ih, List.mem_cons]
    refine or_congr_left ?_
    constructor
    · rintro rfl; exact ⟨_, List.mem_cons_self, .inl ⟨_, _, rfl, rfl⟩⟩
    · rintro ⟨x, hx, ⟨m, g, -, h⟩ | ⟨s', p', m, e, -⟩⟩ <;> cases List.mem_singleton.1 hx
      · exact h
      · cases e
  | sub hs _ _ ih' ih =>
    rw [fieldStore_cons, ← ih, List.mem_append]
    refine or_congr_left ?_
    have ih' := fun q => (ih' q).trans (isStore_iff h hs q).symm
    rw [List.mem_map]
    constructor
    · rintro ⟨q, hq, rfl⟩
      obtain ⟨m, hq⟩ := (ih' q).1 hq
      exact ⟨_, List.mem_cons_self, .inr ⟨_, q, m, rfl, rfl, hq⟩⟩
    · rintro ⟨x, hx, ⟨m, g, e, -⟩ | ⟨s', q, m, e, rfl, hq⟩⟩ <;> cases List.mem_singleton.1 hx <;> cases e
      exact ⟨q, (ih' q).2 ⟨m, hq⟩, rfl⟩
  | phantom _ ih =>
    rw [fieldStore_cons, ← ih]
    simp [FieldStore]

theorem holds_heads {S : List Item} {fs : List Field} {l : List (List Ident)} (k : Holds S fs l) :
    ∀ p ∈ l, ∃ f ∈ fs.map Field.name, ∃ q, p = f :: q := by
  induction k with
  | nil => simp
  | store _ ih =>
    rintro p hp
    rcases List.mem_cons.1 hp with rfl | hp
    · exact ⟨_, List.mem_cons_self, [], rfl⟩
    · obtain ⟨f, hf, q, rfl⟩ := ih p hp
      exact ⟨f, List.mem_cons_of_mem _ hf, q, rfl⟩
  | sub _ _ _ _ ih =>
    rintro p hp
    rcases List.mem_append.1 hp with hp | hp
    · obtain ⟨q, -, rfl⟩ := List.mem_map.1 hp
      exact ⟨_, List.mem_cons_self, q, rfl⟩
    · obtain ⟨f, hf, q, rfl⟩ := ih p hp
      exact ⟨f, List.mem_cons_of_mem _ hf, q, rfl⟩
  | phantom _ ih =>
    rintro p hp
    obtain ⟨f, hf, q, rfl⟩ := ih p hp
    exact ⟨f, List.mem_cons_of_mem _ hf, q, rfl⟩

theorem nodup_map_cons {f : Ident} {l : List (List Ident)} (h : l.Nodup) : (l.map (f :: ·)).Nodup := by
  induction l with
  | nil => exact List.nodup_nil
  | cons a l ih =>
    rw [List.nodup_cons] at h
    rw [List.map_cons, List.nodup_cons]
    refine ⟨?_, ih h.2⟩
    intro k
    obtain ⟨b, hb, e⟩ := List.mem_map.1 k
    cases e
    exact h.1 hb

theorem holds_nodup {S : List Item} (h : Accepted S) {fs : List Field} {l : List (List Ident)}
    (k : Holds S fs l) (hn : (fs.map Field.name).Nodup) : l.Nodup := by
  induction k with
  | nil => exact List.nodup_nil
  | store k ih =>
    rw [List.map_cons, List.nodup_cons] at hn
    rw [List.nodup_cons]
    refine ⟨fun hp => ?_, ih hn.2⟩
    obtain ⟨f, hf, q, e⟩ := holds_heads k _ hp
    cases e
    exact hn.1 hf
  | sub hs _ k ih' ih =>
    rw [List.map_cons, List.nodup_cons] at hn
    rw [List.nodup_append]
    refine ⟨nodup_map_cons (ih' (h.fields _ _ _ hs)), ih hn.2, ?_⟩
    rintro p hp _ hq rfl
    obtain ⟨p', -, rfl⟩ := List.mem_map.1 hp
    obtain ⟨f, hf, q, e⟩ := holds_heads k _ hq
    cases e
    exact hn.1 hf
  | phantom _ ih =>
    rw [List.map_cons, List.nodup_cons] at hn
    exact ih hn.2

/-! ## Methods -/

/-- The methods that have a store in configuration `c`. -/
def liveMeths (c : Config) (l : List Meth) : List Meth :=
  l.filter fun m => !m.isStatic && c.active (noDoc m.attrs)

theorem fields_strip (c : Config) (l : List Meth) (md : Ident) :
    (fieldDefinitions l md).filter (fun x => c.active x.attrs) = (liveMeths c l).map (·.field md) := by
  simp only [fieldDefinitions, liveMeths, List.filter_map, List.filter_filter]
  congr 2
  funext m
  rw [Bool.and_comm]; rfl

theorem checkpoints_strip (c : Config) (l : List Meth) :
    (checkpoints l).filter (fun x => c.active x.attrs) = (liveMeths c l).map Meth.checkpoint := by
  simp only [checkpoints, liveMeths, List.filter_map, List.filter_filter]
  congr 2
  funext m
  rw [Bool.and_comm]; rfl

theorem phantoms_are : ∀ {i : Nat} {l : List GParam} {fs : List Field}, phantomFields i l = .ok fs →
    ∀ f ∈ fs, f.attrs = [] ∧ ∃ p, f.ty = .phantom p
  | _, [], fs, h => by
    simp only [phantomFields, gen_pure_ok] at h
    subst h; simp
  | i, .lt p :: l, fs, h => by
    rw [phantomFields] at h
    split at h
    · simp only [gen_bind_ok, gen_pure_ok] at h
      obtain ⟨r, hr, rfl⟩ := h
      rintro f hf
      rcases List.mem_cons.1 hf with rfl | hf
      · exact ⟨rfl, _, rfl⟩
      · exact phantoms_are hr f hf
    · simp at h
  | i, .ty p :: l, fs, h => by
    simp only [phantomFields, gen_bind_ok, gen_pure_ok] at h
    obtain ⟨r, hr, rfl⟩ := h
    rintro f hf
    rcases List.mem_cons.1 hf with rfl | hf
    · exact ⟨rfl, _, rfl⟩
    · exact phantoms_are hr f hf
  | i, .const _ _ :: l, fs, h => by simp [phantomFields] at h

/-- There is one field for each parameter. -/
theorem phantoms_of : ∀ {i : Nat} {l : List GParam} {fs : List Field}, phantomFields i l = .ok fs →
    fs.map Field.ty = l.map FieldTy.phantom
  | _, [], fs, h => by
    simp only [phantomFields, gen_pure_ok] at h
    subst h; rfl
  | i, .lt p :: l, fs, h => by
    rw [phantomFields] at h
    split at h
    · simp only [gen_bind_ok, gen_pure_ok] at h
      obtain ⟨r, hr, rfl⟩ := h
      rw [List.map_cons, List.map_cons, phantoms_of hr]
    · simp at h
  | i, .ty p :: l, fs, h => by
    simp only [phantomFields, gen_bind_ok, gen_pure_ok] at h
    obtain ⟨r, hr, rfl⟩ := h
    rw [List.map_cons, List.map_cons, phantoms_of hr]
  | i, .const _ _ :: l, fs, h => by simp [phantomFields] at h

theorem phantoms_hold {S : List Item} : ∀ {fs : List Field}, (∀ f ∈ fs, ∃ p, f.ty = .phantom p) → Holds S fs []
  | [], _ => .nil
  | ⟨a, n, t⟩ :: fs, h => by
    obtain ⟨p, rfl⟩ : ∃ p, t = .phantom p := h _ List.mem_cons_self
    exact .phantom (phantoms_hold fun f hf => h f (List.mem_cons_of_mem _ hf))

theorem methods_hold {S : List Item} {md : Ident} {fs : List Field} {l : List (List Ident)}
    (h : Holds S fs l) : ∀ ms : List Meth,
      Holds S (ms.map (·.field md) ++ fs) (ms.map (fun m => [m.name]) ++ l)
  | [] => h
  | _ :: ms => .store (methods_hold h ms)

theorem methods_run {S : List Item} {s : Ident} {stmts l} (h : Runs S s stmts l) : ∀ ms : List Meth,
    (∀ m ∈ ms, ∃ md g, HasField S s m.name (.store md g)) →
      Runs S s (ms.map Meth.checkpoint ++ stmts) (ms.map (fun m => [m.name]) ++ l)
  | [], _ => h
  | m :: ms, hf => by
    obtain ⟨md, g, k⟩ := hf m List.mem_cons_self
    exact .store k (methods_run h ms fun m hm => hf m (List.mem_cons_of_mem _ hm))

/-! ## Traits -/

/-- The key of `unique_trait_iter`. -/
def traitKey (t : MockTrait) : TraitPath × List Attr := (t.path, noDocAsync t.attrs)

theorem uniqueTraits_sub : ∀ {hs : List (TraitPath × List Attr)} {l : List MockTrait} {t : MockTrait},
    t ∈ uniqueTraits hs l → t ∈ l
  | _, [], _, h => h
  | hs, u :: l, t, h => by
    simp only [uniqueTraits] at h
    split at h
    · exact List.mem_cons_of_mem _ (uniqueTraits_sub h)
    · rcases List.mem_cons.1 h with rfl | h
      · exact List.mem_cons_self
      · exact List.mem_cons_of_mem _ (uniqueTraits_sub h)

theorem uniqueTraits_rep : ∀ {hs : List (TraitPath × List Attr)} {l : List MockTrait} {t : MockTrait},
    t ∈ l → traitKey t ∈ hs ∨ ∃ u ∈ uniqueTraits hs l, traitKey u = traitKey t
  | hs, u :: l, t, h => by
    simp only [uniqueTraits]
    rcases List.mem_cons.1 h with rfl | h
    · split
      · rename_i k; exact .inl k
      · exact .inr ⟨t, List.mem_cons_self, rfl⟩
    · split
      · exact uniqueTraits_rep h
      · rcases uniqueTraits_rep (hs := (u.path, noDocAsync u.attrs) :: hs) h with k | ⟨v, hv, e⟩
        · rcases List.mem_cons.1 k with k | k
          · exact .inr ⟨u, List.mem_cons_self, k.symm⟩
          · exact .inl k
        · exact .inr ⟨v, List.mem_cons_of_mem _ hv, e⟩

theorem uniqueTraits_first : ∀ {hs : List (TraitPath × List Attr)} {pre post : List MockTrait}
    {t : MockTrait}, traitKey t ∉ hs → (∀ u ∈ pre, traitKey u ≠ traitKey t) →
      t ∈ uniqueTraits hs (pre ++ t :: post)
  | hs, [], post, t, h, _ => by
    simp only [List.nil_append, uniqueTraits]
    split
    · rename_i k; exact absurd k h
    · exact List.mem_cons_self
  | hs, u :: pre, post, t, h, k => by
    simp only [List.cons_append, uniqueTraits]
    have k' := fun v hv => k v (List.mem_cons_of_mem u hv)
    split
    · exact uniqueTraits_first h k'
    · refine List.mem_cons_of_mem _ (uniqueTraits_first ?_ k')
      intro e
      rcases List.mem_cons.1 e with e | e
      · exact k u List.mem_cons_self e.symm
      · exact h e

/-! ## The whole -/

/-- The code generated for one substruct. -/
structure SubItems (items : List Item) (g : Generics) (s : SubStruct) (phantoms : List Field) : Prop where
  mod : .mod (noDocAsync s.attrs) s.modname (s.methods.map Meth.privMod) ∈ items
  struct : .struct ⟨noDocAsync s.attrs, .inherited, g⟩ s.name (fieldDefinitions s.methods s.modname ++ phantoms) ∈ items
  impl : .impl { attrs := noDocAsync s.attrs, generics := g, selfArgs := typeArgs g } s.name none
    [⟨pubFn, "checkpoint", .checkpoint (checkpoints s.methods)⟩] ∈ items

/-- The fields of the struct itself. -/
def mainFields (m : MockItemStruct) (phantoms : List Field) : List Field :=
  (m.substructs.filter (!·.allStatic)).map (fun s => ⟨noDocAsync s.attrs, s.fieldname, .sub s.name⟩) ++
    fieldDefinitions m.methods m.modname ++ phantoms

/-- The attributes of the struct itself. -/
def mainAttrs (m : MockItemStruct) : List Attr :=
  ({ asyncTrait := false, mustUse := true } : AttrFormatter).format m.attrs

/-- The `impl` of the struct itself, without its functions. -/
def mainHead (m : MockItemStruct) : ImplHead :=
  { generics := m.generics, selfArgs := typeArgs m.generics, consts := m.consts }

/-- The statements of `checkpoint`. -/
def mainStmts (m : MockItemStruct) : List (WithAttrs (List Ident)) :=
  (m.substructs.filter (!·.allStatic)).map (fun s => ⟨noDocAsync s.attrs, [s.fieldname]⟩) ++
    checkpoints m.methods

/-- The functions of the struct itself. -/
def mainFns (m : MockItemStruct) : List FnItem :=
  m.methods.map (·.call m.modname) ++
    (m.methods.filter (·.isStatic)).map (·.contextFn m.modname) ++
    (m.methods.filter (!·.isStatic)).map (·.expect m.modname) ++
    [⟨pubFn, "checkpoint", .checkpoint (mainStmts m)⟩] ++ m.newMethod

theorem subs_names (c : Config) (g : Generics) : ∀ {l : List SubStruct} {subs : List (List Item)},
    l.mapM (SubStruct.items g) = .ok subs →
      (c.strip subs.flatten).filterMap structName =
        (l.filter fun s => c.active (noDocAsync s.attrs)).map SubStruct.name
  | [], subs, h => by
    simp only [List.mapM_nil, gen_pure_ok] at h
    subst h; rfl
  | s :: l, subs, h => by
    simp only [List.mapM_cons, gen_bind_ok, gen_pure_ok] at h
    obtain ⟨x, hx, r, hr, rfl⟩ := h
    have ih := subs_names c g hr
    simp only [SubStruct.items, gen_bind_ok, gen_pure_ok] at hx
    obtain ⟨ph, -, rfl⟩ := hx
    unfold Config.strip at ih ⊢
    rw [List.flatten_cons, List.filterMap_append, List.filterMap_append, ih, List.filter_cons]
    cases hb : c.active (noDocAsync s.attrs) <;> simp [Config.item, hb, structName, List.filterMap_cons]

/-- The code generated, `phantoms` being the fields for the parameters. -/
structure Layout (m : MockItemStruct) (items : List Item) where
  phantoms : List Field
  phantom : phantomFields 0 m.generics.params = .ok phantoms
  mod : .mod [] m.modname (m.methods.map Meth.privMod) ∈ items
  struct : .struct ⟨mainAttrs m, m.vis, m.generics⟩ m.name (mainFields m phantoms) ∈ items
  impl : .impl (mainHead m) m.name none (mainFns m) ∈ items
  subs : ∀ s ∈ m.substructs, SubItems items m.generics s phantoms
  names : ∀ c : Config, ((m.substructs.filter fun s => c.active (noDocAsync s.attrs)).map
    SubStruct.name).Sublist ((c.strip items).filterMap structName)
  allNames : ∀ c : Config, c.active (mainAttrs m) = true →
    (m.name :: (m.substructs.filter fun s => c.active (noDocAsync s.attrs)).map SubStruct.name).Sublist
      ((c.strip items).filterMap structName)
  impls : ∀ a n t fs, .impl a n t fs ∈ items →
    (a = mainHead m ∧ n = m.name ∧ t = none ∧ fs = mainFns m) ∨
    (t = none ∧ ∃ s ∈ m.substructs, (n = s.name ∧ a.attrs = noDocAsync s.attrs) ∧
      fs = [⟨pubFn, "checkpoint", .checkpoint (checkpoints s.methods)⟩]) ∨
    ∃ u ∈ m.traits, .impl a n t fs ∈ u.implItems (m.modname ++ "_" ++ u.ssName)
  traits : ∀ t ∈ m.traits, ∀ x ∈ t.implItems (m.modname ++ "_" ++ t.ssName), x ∈ items

theorem layout {m : MockItemStruct} {items : List Item} (h : m.items = .ok items) :
    Nonempty (Layout m items) := by
  simp only [MockItemStruct.items, gen_bind_ok, gen_pure_ok] at h
  obtain ⟨ph, hph, subs, hsubs, rfl⟩ := h
  refine ⟨⟨ph, hph, by simp, by simp [mainAttrs, mainFields],
    by simp [mainFns, mainStmts, mainHead], ?_, ?_, ?_, ?_, ?_⟩⟩
  · intro s hs
    obtain ⟨l, hl, e⟩ := mapM_mem hsubs hs
    simp only [SubStruct.items, gen_bind_ok, gen_pure_ok] at e
    obtain ⟨ph', hph', rfl⟩ := e
    rw [hph] at hph'
    cases hph'
    have : ∀ x, x ∈ _ → x ∈ subs.flatten := fun x hx => List.mem_flatten.2 ⟨_, hl, hx⟩
    constructor
    all_goals
      simp only [List.mem_append]
      exact .inl (.inl (.inr (this _ (by simp))))
  · intro c
    rw [← subs_names c m.generics hsubs]
    simp only [Config.strip, List.filterMap_append]
    refine List.Sublist.trans ?_ (List.sublist_append_left _ _)
    refine List.Sublist.trans ?_ (List.sublist_append_left _ _)
    exact List.sublist_append_right _ _
  · intro c ha
    rw [← subs_names c m.generics hsubs]
    simp only [Config.strip, List.filterMap_append]
    refine List.Sublist.trans ?_ (List.sublist_append_left _ _)
    refine List.Sublist.trans ?_ (List.sublist_append_left _ _)
    refine List.Sublist.append (l₁ := [m.name]) ?_ (List.Sublist.refl _)
    refine List.Sublist.trans ?_ (List.sublist_append_left _ _)
    refine List.Sublist.trans ?_ (List.sublist_append_left _ _)
    exact List.singleton_sublist.2 (List.mem_filterMap.2 ⟨_, struct_strip (c := c)
      (a := ⟨mainAttrs m, m.vis, m.generics⟩) (List.mem_cons_of_mem _ List.mem_cons_self) ha, rfl⟩)
  · intro a n t fs h
    simp only [List.mem_append, List.mem_cons, List.not_mem_nil, or_false, reduceCtorEq, false_or,
      Item.impl.injEq] at h
    rcases h with ((h | h) | ⟨rfl, rfl, rfl, rfl⟩) | h
    · unfold MockItemStruct.debugImpl at h
      split at h
      · cases List.mem_singleton.1 h
      · cases h
    · obtain ⟨x, hx, h⟩ := List.mem_flatten.1 h
      obtain ⟨s, hs, e⟩ := mapM_mem' hsubs hx
      simp only [SubStruct.items, gen_bind_ok, gen_pure_ok] at e
      obtain ⟨_, -, rfl⟩ := e
      simp only [List.mem_cons, List.not_mem_nil, or_false, reduceCtorEq, false_or, Item.impl.injEq] at h
      obtain ⟨rfl, rfl, rfl, rfl⟩ := h
      exact .inr (.inl ⟨rfl, s, hs, ⟨rfl, rfl⟩, rfl⟩)
    · exact .inl ⟨by simp [mainHead], rfl, rfl, by simp [mainFns, mainStmts]⟩
    · obtain ⟨u, hu, h⟩ := List.mem_flatMap.1 h
      exact .inr (.inr ⟨u, hu, h⟩)
  · intro t ht x hx
    simp only [List.mem_append]
    exact .inr (List.mem_flatMap.2 ⟨t, ht, hx⟩)

end Mockall.Props
