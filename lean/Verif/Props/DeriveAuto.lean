import Verif.Spec.Auto
import Verif.Props.DeriveMentions
import Verif.Props.DeriveSelfArgs

/-! # C94: mocks can be sent to and shared with other threads -/

namespace Mockall.Props

open Derive Spec

/-! ## The rules -/

variable {w : World} {a : AutoTrait}

theorem has_user {t : Ty} : HasAuto w a (.user t) ↔ w.user a t :=
  ⟨fun h => by cases h; assumption, .user⟩

theorem has_item {p : List Ident} : HasAuto w a (.item p) ↔ (∃ d ∈ w.decls, d.path = p) ∧
    ∀ d ∈ w.decls, d.path = p → ∀ t ∈ d.fields, HasAuto w a t :=
  ⟨fun h => by cases h with | item d hd hp h => exact ⟨⟨d, hd, hp⟩, h⟩, fun ⟨⟨d, hd, hp⟩, h⟩ => .item d hd hp h⟩

theorem has_both : HasAuto w a (.std .both []) := .both

theorem has_owner {n : StdTy} {l : List FTy}
    (hn : n ∈ [StdTy.tuple, .box, .option, .vec, .range, .hashMap, .phantomData]) :
    HasAuto w a (.std n l) ↔ ∀ t ∈ l, HasAuto w a t :=
  ⟨fun h => by cases h <;> first | assumption | (simp at hn), .owner hn⟩

theorem has_mutex {t : FTy} : HasAuto w a (.std .mutex [t]) ↔ HasAuto w .send t :=
  ⟨fun h => by cases h with | mutex h => exact h | owner hn => simp at hn, .mutex⟩

theorem has_arc {t : FTy} : HasAuto w a (.std .arc [t]) ↔ HasAuto w .send t ∧ HasAuto w .sync t :=
  ⟨fun h => by cases h with | arc h h' => exact ⟨h, h'⟩ | owner hn => simp at hn, fun h => .arc h.1 h.2⟩

theorem guard_not_send {t : FTy} : ¬ HasAuto w .send (.std .mutexGuard [t]) := fun h => by
  cases h with | owner hn => simp at hn

theorem has_dyn {n : Ident} {l : List Ident} :
    HasAuto w a (.dyn n l) ↔ a.name ∈ l ∨ a.name ∈ superTraits n :=
  ⟨fun h => by cases h; assumption, .dyn⟩

theorem has_box {t : FTy} : HasAuto w a (.std .box [t]) ↔ HasAuto w a t := by
  rw [has_owner (by simp)]; simp

theorem has_option {t : FTy} : HasAuto w a (.std .option [t]) ↔ HasAuto w a t := by
  rw [has_owner (by simp)]; simp

theorem has_vec {t : FTy} : HasAuto w a (.std .vec [t]) ↔ HasAuto w a t := by
  rw [has_owner (by simp)]; simp

theorem has_phantom {t : FTy} : HasAuto w a (.std .phantomData [t]) ↔ HasAuto w a t := by
  rw [has_owner (by simp)]; simp

theorem has_boxDyn {n : Ident} {l : List Ident} :
    HasAuto w a (boxDynF n l) ↔ a.name ∈ l ∨ a.name ∈ superTraits n := by
  rw [boxDynF, has_box, has_dyn]

theorem boxDyn_send {n : Ident} : HasAuto w .send (boxDynF n ["Send"]) := has_boxDyn.2 (.inl (by simp [AutoTrait.name]))

/-! ## The types of mockall -/

theorem has_decl (M : w.Ok) {p : List Ident} {l : List FTy} (h : ⟨p, l⟩ ∈ w.decls) :
    HasAuto w a (.item p) ↔ ∀ t ∈ l, HasAuto w a t := by
  rw [has_item]
  exact ⟨fun k => k.2 _ h rfl, fun k => ⟨⟨_, h, rfl⟩, fun d hd hp => M.unique d hd _ h hp ▸ k⟩⟩

theorem has_timesRange (M : w.Ok) : HasAuto w a (.item ["mockall", "TimesRange"]) := by
  rw [has_decl M (l := [.std .range [.std .both []]]) (M.lib _ (by simp [libDecls]))]
  simp only [List.mem_singleton, forall_eq]
  rw [has_owner (by simp)]
  simp [has_both]

theorem has_times (M : w.Ok) : HasAuto w a (.item ["mockall", "Times"]) := by
  rw [has_decl M (l := [.std .both [], .item ["mockall", "TimesRange"]]) (M.lib _ (by simp [libDecls]))]
  simp [has_both, has_timesRange M]

theorem has_keyTy (M : w.Ok) : HasAuto w a (.item ["mockall", "Key"]) := by
  rw [has_decl M (l := [.std .both []]) (M.lib _ (by simp [libDecls]))]
  simp [has_both]

theorem has_seqInner (M : w.Ok) : HasAuto w a (.item ["mockall", "SeqInner"]) := by
  rw [has_decl M (l := [.std .both []]) (M.lib _ (by simp [libDecls]))]
  simp [has_both]

theorem has_seqHandle (M : w.Ok) : HasAuto w a (.item ["mockall", "SeqHandle"]) := by
  rw [has_decl M (l := [.std .arc [.item ["mockall", "SeqInner"]], .std .both []]) (M.lib _ (by simp [libDecls]))]
  simp [has_both, has_arc, has_seqInner M]

/-- C94 for sequences: they can be sent and shared. -/
theorem C94_sequence (M : w.Ok) : HasAuto w a (.item ["mockall", "Sequence"]) := by
  rw [has_decl M (l := [.std .arc [.item ["mockall", "SeqInner"]], .std .both []]) (M.lib _ (by simp [libDecls]))]
  simp [has_both, has_arc, has_seqInner M]

/-! ## The types of a function -/

theorem mod_matcher {p : List Ident} {f : MockFn} (M : w.Mod p f) : HasAuto w .send (.item (p ++ ["Matcher"])) := by
  rw [has_decl M.toOk (l := f.matcherFields) (M.has _ (by simp [MockFn.decls]))]
  intro t ht
  simp only [MockFn.matcherFields, List.mem_cons, List.not_mem_nil, or_false] at ht
  rcases ht with rfl | rfl | rfl | rfl
  · exact boxDyn_send
  · exact .fragile
  · rw [has_box, has_owner (by simp)]
    intro t ht
    obtain ⟨_, -, rfl⟩ := List.mem_map.1 ht
    exact boxDyn_send
  · exact boxDyn_send

theorem mod_common {p : List Ident} {f : MockFn} (M : w.Mod p f) : HasAuto w a (.item (p ++ ["Common"])) := by
  rw [has_decl M.toOk (l := MockFn.commonFields p) (M.has _ (by simp [MockFn.decls]))]
  intro t ht
  simp only [MockFn.commonFields, List.mem_cons, List.not_mem_nil, or_false] at ht
  rcases ht with rfl | rfl | rfl
  · exact has_mutex.2 (mod_matcher M)
  · exact has_option.2 (has_seqHandle M.toOk)
  · exact has_times M.toOk

theorem mod_rfunc {p : List Ident} {f : MockFn} (M : w.Mod p f) : HasAuto w a (.item (p ++ ["Rfunc"])) ↔
    (f.kind = .static → a = .send) ∧ (f.kind ≠ .static → w.user a f.ownedOutput) := by
  rw [has_decl M.toOk (l := f.rfuncFields) (M.has _ (by simp [MockFn.decls]))]
  have fr : ∀ t, HasAuto w a (.std .fragile [t]) := fun t => .fragile
  cases hk : f.kind <;>
    simp [MockFn.rfuncFields, hk, has_user, has_option, has_mutex, has_boxDyn, fr] <;>
    cases a <;> simp [AutoTrait.name, superTraits]

theorem mod_expectation {p : List Ident} {f : MockFn} (M : w.Mod p f) : HasAuto w a (.item (p ++ ["Expectation"])) ↔
    (f.kind ≠ .static → w.user a f.ownedOutput) := by
  rw [has_decl M.toOk (l := f.expectationFields p) (M.has _ (by simp [MockFn.decls]))]
  cases hk : f.kind <;>
    simp [MockFn.expectationFields, hk, mod_common M, has_mutex, mod_rfunc M]

/-- C94 for a function: its expectations can be sent, or shared, iff this is true of what is returned by reference.
Nothing is required of the function's arguments, nor of its generic parameters, nor of results returned by value. -/
theorem C94_function {p : List Ident} {f : MockFn} (M : w.Mod p f) :
    (HasAuto w a (.item (p ++ ["Expectation"])) ↔ (f.kind = .static ∨ w.user a f.ownedOutput)) ∧
    (HasAuto w a (.item (p ++ ["Expectations"])) ↔ (f.kind = .static ∨ w.user a f.ownedOutput)) := by
  have e : HasAuto w a (.item (p ++ ["Expectations"])) ↔ HasAuto w a (.item (p ++ ["Expectation"])) := by
    rw [has_decl M.toOk (l := [.std .vec [.item (p ++ ["Expectation"])]]) (M.has _ (by simp [MockFn.decls]))]
    simp [has_vec]
  rw [e, mod_expectation M]
  have : (f.kind ≠ .static → w.user a f.ownedOutput) ↔ (f.kind = .static ∨ w.user a f.ownedOutput) := by grind
  exact ⟨this, this⟩

theorem mod_store {p : List Ident} {f : MockFn} (M : w.Mod p f) (hs : f.isStored = true) :
    HasAuto w a (.item (p ++ ["GenericExpectations"])) := by
  rw [has_decl M.toOk (l := MockFn.storeFields) (M.has _ (by simp [MockFn.decls, hs]))]
  simp only [MockFn.storeFields, List.mem_singleton, forall_eq]
  rw [has_owner (by simp)]
  simp [has_keyTy M.toOk, has_boxDyn]
  cases a <;> simp [AutoTrait.name, superTraits]

theorem kind_static {f : MockFn} : f.kind = .static ↔ f.syncTys = [] := by
  unfold MockFn.kind MockFn.syncTys
  cases f.returnRef <;> cases f.returnRefmut <;> simp

/-- C94 for a function with generic parameters: its expectations for all of them together can be sent and shared.  The
expectations of each instance can be put there if the where clause of the setter is met, that is, if what is returned by
reference can be sent and shared. -/
theorem C94_generic {p : List Ident} {f : MockFn} (M : w.Mod p f) (hs : f.isStored = true) :
    (∀ a, HasAuto w a (.item (p ++ ["GenericExpectations"]))) ∧
    ((∀ t ∈ f.syncTys, ∀ a, w.user a t) ↔ ∀ a, a.name ∈ superTraits "AnyExpectations" →
      HasAuto w a (.item (p ++ ["Expectations"]))) := by
  refine ⟨fun a => mod_store M hs, ?_⟩
  have h : ∀ a : AutoTrait, a.name ∈ superTraits "AnyExpectations" := fun a => by
    cases a <;> simp [AutoTrait.name, superTraits]
  simp only [(C94_function M).2, h, true_implies, kind_static]
  unfold MockFn.syncTys
  split <;> simp

/-- C94 for static functions: the static variable that holds the expectations is shared between threads, as all
static variables are. -/
theorem C94_static {b : Builder} {f : MockFn} {p : List Ident} (hb : build b = .ok f) (M : w.Mod p f)
    (hs : f.isStatic = true) : HasAuto w .sync (f.staticTy p) := by
  have hk : f.kind = .static := by
    obtain ⟨-, -, -, -, k5, k6⟩ := C59_kind b f hb
    exact k6 (k5.1 hs)
  unfold MockFn.staticTy
  split
  · rename_i he
    have hst : f.isStored = true := by simp [MockFn.isStored, he, hs]
    exact .onceSync (has_mutex.2 (mod_store M hst)) (has_mutex.2 (mod_store M hst))
  · exact has_mutex.2 ((C94_function M).2.2 (.inl hk))

/-- C94 for the contexts of static functions, and for what their `expect` returns: a `Context` can be sent, whatever the
generic parameters of the function are, but not shared; expectations must be set where `expect` was called. -/
theorem C94_context {p : List Ident} {f : MockFn} (M : w.Mod p f) (hs : f.isStatic = true) :
    HasAuto w .send (.item (p ++ ["Context"])) ∧ ¬ HasAuto w .sync (.item (p ++ ["Context"])) ∧
    ¬ HasAuto w .send (.item (p ++ ["ExpectationGuard"])) := by
  have e : ∀ a, HasAuto w a (.item (p ++ ["Context"])) ↔ ∀ t ∈ MockFn.contextFields, HasAuto w a t := fun a =>
    has_decl M.toOk (M.has _ (by simp [MockFn.decls, hs]))
  refine ⟨(e _).2 ?_, fun h => ?_, fun h => ?_⟩
  · simp [MockFn.contextFields, has_phantom, has_boxDyn, AutoTrait.name]
  · have := (e _).1 h
    simp [MockFn.contextFields, has_phantom, has_boxDyn, AutoTrait.name, superTraits] at this
  · rw [has_decl M.toOk (l := f.guardFields p) (M.has _ (by simp [MockFn.decls, hs]))] at h
    unfold MockFn.guardFields at h
    split at h <;> exact guard_not_send (h _ List.mem_cons_self)

/-- A closure or value with the traits demanded can be put into the field: the field's trait object demands no others of
`Send` and `Sync`; and only `Fragile` takes one that need not be `Send`. -/
inductive FitsField (demands : List Ident) : FTy → Prop
  | boxed {n l} (h : "Send" ∈ demands) (h' : ∀ a : AutoTrait, a.name ∈ l → a.name ∈ demands) : FitsField demands (boxDynF n l)
  | fragile {n l} (h : ∀ a : AutoTrait, a.name ∈ l → a.name ∈ demands) : FitsField demands (.std .fragile [boxDynF n l])

/-- C94 for what is given to expectations: it fits the field that it is put into, which is a field of `Matcher` or
`Rfunc`; the predicates given to `with` are put into a tuple. -/
theorem C94_given (f : MockFn) : (∀ g ∈ matcherGiven ++ returnGiven f, FitsField g.demands g.field) ∧
    (∀ g ∈ returnGiven f, g.field ∈ f.rfuncFields) ∧
    ∀ g ∈ matcherGiven, g.field ∈ f.matcherFields ∨
      g.name = "with" ∧ .std .box [.std .tuple (f.args.map fun _ => g.field)] ∈ f.matcherFields := by
  refine ⟨?_, ?_, ?_⟩
  rotate_left
  · cases hk : f.kind <;> simp [returnGiven, MockFn.rfuncFields, hk]
  · simp [matcherGiven, MockFn.matcherFields]
  have b1 : ∀ n d, "Send" ∈ d → FitsField d (boxDynF n ["Send"]) := fun n d h => .boxed h fun a => by
    cases a <;> simp [AutoTrait.name, h]
  have b2 : ∀ n d, "Send" ∈ d → "Sync" ∈ d → FitsField d (boxDynF n ["Send", "Sync"]) := fun n d h h' => .boxed h fun a => by
    cases a <;> simp [AutoTrait.name, h, h']
  have b3 : ∀ n d, FitsField d (.std .fragile [boxDynF n []]) := fun n d => .fragile fun a => by simp
  intro g hg
  cases hk : f.kind <;> simp only [matcherGiven, returnGiven, hk, List.cons_append, List.nil_append, List.mem_cons,
    List.not_mem_nil, or_false] at hg <;> grind

/-! ## Mock structs -/

theorem static_kind {b : Builder} {f : MockFn} (hb : build b = .ok f) (hs : f.isStatic = true) : f.kind = .static := by
  obtain ⟨-, -, -, -, k5, k6⟩ := C59_kind b f hb
  exact k6 (k5.1 hs)

/-- Functions with generic parameters of their own are stored by type. -/
theorem generic_stored {b : Builder} {f : MockFn} (hs : Wf (b.structGenerics.getD {})) (hw : Wf b.sig.generics)
    (hb : build b = .ok f) (hg : f.isMethodGeneric = true) : f.isStored = true := by
  obtain ⟨s⟩ := build_steps hb
  rw [MockFn.isStored, hg, Bool.or_true, Bool.and_true, isGeneric_expectation]
  obtain ⟨w1, -⟩ := split_typeParams hs s.sgen
  obtain ⟨w2, -⟩ := split_typeParams (steps_genericsWf s hw).1 s.mgen
  rcases (isGeneric_method f).1 hg with ⟨n, h⟩ | h
  · refine .inl ⟨n, ?_⟩
    rw [has_key, s.egen, merge_mem_keys (merge_weak (ltsToGenerics_weak _)) (ltsToGenerics_weak _),
      merge_mem_keys (by rw [s.cgen]; exact merge_weak w2) (ltsToGenerics_weak _), s.cgen,
      merge_mem_keys w1 w2, ← has_key, ← has_key]
    exact .inl (.inl (.inr h))
  · refine .inr ?_
    rw [s.egen, merge_preds, merge_preds, ltsToGenerics_preds, ltsToGenerics_preds, s.cgen, merge_preds]
    simp [h]

/-- What the fields of methods require. -/
theorem fields_have {md : Ident} {l : List Meth}
    (hmod : ∀ x ∈ l, w.Mod [md, x.innerMod] x.fn)
    (hb : ∀ x ∈ l, ∃ b : Builder, Wf (b.structGenerics.getD {}) ∧ Wf b.sig.generics ∧ build b = .ok x.fn) :
    (∀ t ∈ (fieldDefinitions l md).map (·.ty.fty), HasAuto w a t) ↔ ∀ x ∈ l, Requires w a x.fn := by
  have key : ∀ x ∈ l, (HasAuto w a (.item ([md, x.innerMod] ++
      [if x.fn.isMethodGeneric then "GenericExpectations" else "Expectations"])) ↔ Requires w a x.fn) := by
    intro x hx
    obtain ⟨b, h1, h2, h3⟩ := hb x hx
    cases hg : x.fn.isMethodGeneric with
    | true =>
      rw [if_pos rfl]
      exact iff_of_true (mod_store (hmod x hx) (generic_stored h1 h2 h3 hg)) fun k => by simp [hg] at k
    | false =>
      rw [if_neg (by simp), (C94_function (hmod x hx)).2]
      simp only [Requires, hg, true_implies]
      grind
  constructor
  · intro h x hx
    cases hst : x.fn.isStatic with
    | true =>
      obtain ⟨b, -, -, h3⟩ := hb x hx
      exact fun _ k => absurd (static_kind h3 hst) k
    | false =>
      refine (key x hx).1 (h _ (List.mem_map.2 ⟨x.field md, ?_, rfl⟩))
      exact List.mem_map.2 ⟨x, List.mem_filter.2 ⟨hx, by simp [Meth.isStatic, hst]⟩, rfl⟩
  · intro h t ht
    obtain ⟨f, hf, rfl⟩ := List.mem_map.1 ht
    obtain ⟨x, hx, rfl⟩ := List.mem_map.1 hf
    exact (key x (List.mem_filter.1 hx).1).2 (h x (List.mem_filter.1 hx).1)

theorem phantoms_have {l : List GParam} : (∀ t ∈ l.map phantomTy, HasAuto w a t) ↔
    ∀ p, .ty p ∈ l → w.user a (.name p.id) := by
  constructor
  · intro h p hp
    exact has_user.1 (has_phantom.1 (h _ (List.mem_map.2 ⟨_, hp, rfl⟩)))
  · intro h t ht
    obtain ⟨p, hp, rfl⟩ := List.mem_map.1 ht
    cases p with
    | lt => exact has_phantom.2 has_both
    | ty p => exact has_phantom.2 (has_user.2 (h p hp))
    | const => exact .owner (by simp) (by simp)

/-- All methods of a mock are made by `build`. -/
theorem struct_built {hash : List Args → Nat} {m : MockableStruct} {mi : MockItemStruct}
    (h : mockItemStruct hash m = .ok mi) (hg : Wf m.generics)
    (hw : ∀ f ∈ m.methods, Wf f.sig.generics) (hw' : ∀ i ∈ m.impls, ∀ f, .fn f ∈ i.items → Wf f.sig.generics) :
    mi.generics = m.generics ∧
      (∀ x ∈ mi.methods, ∃ b : Builder, Wf (b.structGenerics.getD {}) ∧ Wf b.sig.generics ∧ build b = .ok x.fn) ∧
      ∀ t ∈ mi.traits, ∀ x ∈ t.methods,
        ∃ b : Builder, Wf (b.structGenerics.getD {}) ∧ Wf b.sig.generics ∧ build b = .ok x.fn := by
  have built : ∀ {t v} {f : ImplFn} {x : Meth}, Wf f.sig.generics → methOf m.generics t v f.attrs f.qual f.sig = .ok x →
      ∃ b : Builder, Wf (b.structGenerics.getD {}) ∧ Wf b.sig.generics ∧ build b = .ok x.fn := by
    intro t v f x hf e
    obtain ⟨b, b1, b2, b3⟩ := methOf_steps e
    exact ⟨b, by rw [b1]; exact hg, by rw [b2]; exact hf, b3⟩
  simp only [mockItemStruct, gen_bind_ok, gen_pure_ok] at h
  obtain ⟨ms, h1, ts, h2, rfl⟩ := h
  refine ⟨rfl, fun x hx => ?_, fun t ht x hx => ?_⟩
  · obtain ⟨f, hf, e⟩ := mapM_mem' h1 hx
    exact built (hw f hf) e
  · obtain ⟨i, hi, e⟩ := mapM_mem' h2 ht
    obtain ⟨-, -, k⟩ := mockTrait_methods e
    obtain ⟨f, hf, e'⟩ := k x hx
    exact built (hw' i hi f hf) e'

/-- C94 for mocks of structs and traits: the mock can be sent, or shared, iff this is true of its type parameters and of
what its methods return by reference, except for methods with generic parameters of their own. -/
theorem C94_struct (hash : List Args → Nat) (m : MockableStruct) (mi : MockItemStruct) (items : List Item)
    (h : mockItemStruct hash m = .ok mi) (hi : mi.items = .ok items) (hg : Wf m.generics)
    (hw : ∀ f ∈ m.methods, Wf f.sig.generics) (hw' : ∀ i ∈ m.impls, ∀ f, .fn f ∈ i.items → Wf f.sig.generics)
    (S : w.Struct mi items) :
    HasAuto w a (.item [mi.name]) ↔ (∀ p, .ty p ∈ m.generics.params → w.user a (.name p.id)) ∧
      (∀ x ∈ mi.methods, Requires w a x.fn) ∧ ∀ s ∈ mi.substructs, ∀ x ∈ s.methods, Requires w a x.fn := by
  obtain ⟨L⟩ := layout hi
  obtain ⟨eg, bm, bt⟩ := struct_built h hg hw hw'
  have nophantom : L.phantoms.map (·.ty.fty) = mi.generics.params.map phantomTy := by
    have e := congrArg (List.map FieldTy.fty) (phantoms_of L.phantom)
    rwa [List.map_map, List.map_map] at e
  have hown : (∀ t ∈ (fieldDefinitions mi.methods mi.modname).map (·.ty.fty), HasAuto w a t) ↔
      ∀ x ∈ mi.methods, Requires w a x.fn :=
    fields_have (fun x hx => { S.toOk with has := fun d hd => S.mods d (List.mem_append_left _
      (List.mem_flatMap.2 ⟨x, hx, hd⟩)) }) bm
  have hsub : ∀ s ∈ mi.substructs, (HasAuto w a (.item [s.name]) ↔
      (∀ x ∈ s.methods, Requires w a x.fn) ∧ ∀ p, .ty p ∈ m.generics.params → w.user a (.name p.id)) := by
    intro s hs
    have hd := S.structs _ (L.subs s hs).struct _ rfl
    rw [has_decl S.toOk hd, List.map_append, nophantom, eg, ← phantoms_have, ← fields_have (md := s.modname)
      (fun x hx => { S.toOk with has := fun d hd => S.mods d (List.mem_append_right _
        (List.mem_flatMap.2 ⟨s, hs, List.mem_flatMap.2 ⟨x, hx, hd⟩⟩)) }) ?_]
    · simp only [List.mem_append, or_imp, forall_and]
    · intro x hx
      obtain ⟨t, ht, rfl⟩ := List.mem_map.1 hs
      exact bt t (uniqueTraits_sub ht) x hx
  have hd := S.structs _ L.struct _ rfl
  rw [has_decl S.toOk hd, mainFields, List.map_append, nophantom, List.map_append]
  simp only [List.mem_append, or_imp, forall_and]
  rw [hown, eg, phantoms_have]
  constructor
  · rintro ⟨⟨k1, k2⟩, k3⟩
    refine ⟨k3, k2, fun s hs => ?_⟩
    cases hst : s.allStatic with
    | true =>
      intro x hx
      obtain ⟨t, ht, rfl⟩ := List.mem_map.1 hs
      obtain ⟨b, -, -, e⟩ := bt t (uniqueTraits_sub ht) x hx
      exact fun _ k => absurd (static_kind e (List.all_eq_true.1 hst x hx)) k
    | false =>
      refine ((hsub s hs).1 (k1 _ (List.mem_map.2 ⟨_, List.mem_map.2 ⟨s, ?_, rfl⟩, rfl⟩))).1
      exact List.mem_filter.2 ⟨hs, by simp [hst]⟩
  · rintro ⟨k1, k2, k3⟩
    refine ⟨⟨fun t ht => ?_, k2⟩, k1⟩
    obtain ⟨f, hf, rfl⟩ := List.mem_map.1 ht
    obtain ⟨s, hs, rfl⟩ := List.mem_map.1 hf
    have hs := (List.mem_filter.1 hs).1
    exact (hsub s hs).2 ⟨k3 s hs, k1⟩

theorem fields_cfg (c : Config) (l : List Meth) (md : Ident) :
    (fieldDefinitions l md).filter (fun x => c.active x.attrs) =
      fieldDefinitions (l.filter fun x => c.active (noDoc x.attrs)) md := by
  rw [fields_strip, fieldDefinitions, liveMeths, List.filter_filter]

/-- C94 with conditional compilation: `C94_struct`, where only those methods and traits count that are compiled. -/
theorem C94_cfg (hash : List Args → Nat) (m : MockableStruct) (mi : MockItemStruct) (items : List Item) (c : Config)
    (h : mockItemStruct hash m = .ok mi) (hi : mi.items = .ok items) (hg : Wf m.generics)
    (hw : ∀ f ∈ m.methods, Wf f.sig.generics) (hw' : ∀ i ∈ m.impls, ∀ f, .fn f ∈ i.items → Wf f.sig.generics)
    (hc : ∀ a ∈ m.attrs, c.lets a = true) (S : w.Compiled c mi items) :
    HasAuto w a (.item [mi.name]) ↔ (∀ p, .ty p ∈ m.generics.params → w.user a (.name p.id)) ∧
      (∀ x ∈ mi.methods, c.active (noDoc x.attrs) = true → Requires w a x.fn) ∧
      ∀ s ∈ mi.substructs, c.active (noDocAsync s.attrs) = true →
        ∀ x ∈ s.methods, c.active (noDoc x.attrs) = true → Requires w a x.fn := by
  obtain ⟨L⟩ := layout hi
  obtain ⟨eg, bm, bt⟩ := struct_built h hg hw hw'
  have ha : c.active (mainAttrs mi) = true := by
    simp only [mockItemStruct, gen_bind_ok, gen_pure_ok] at h
    obtain ⟨ms, -, ts, -, rfl⟩ := h
    exact active_format_of c _ _ hc
  have hp := phantoms_are L.phantom
  have nophantom : L.phantoms.map (·.ty.fty) = mi.generics.params.map phantomTy := by
    have e := congrArg (List.map FieldTy.fty) (phantoms_of L.phantom)
    rwa [List.map_map, List.map_map] at e
  have inl : ∀ {l : List Meth} {x : Meth}, x ∈ l.filter (fun x => c.active (noDoc x.attrs)) ↔
      x ∈ l ∧ c.active (noDoc x.attrs) = true := List.mem_filter
  have hown : (∀ t ∈ (fieldDefinitions (mi.methods.filter fun x => c.active (noDoc x.attrs)) mi.modname).map (·.ty.fty),
      HasAuto w a t) ↔ ∀ x ∈ mi.methods, c.active (noDoc x.attrs) = true → Requires w a x.fn := by
    rw [fields_have (fun x hx => { S.toOk with has := fun d hd => S.mods x (inl.1 hx).1 (inl.1 hx).2 d hd })
      (fun x hx => bm x (inl.1 hx).1)]
    simp only [inl, and_imp]
  have hsub : ∀ s ∈ mi.substructs, c.active (noDocAsync s.attrs) = true → (HasAuto w a (.item [s.name]) ↔
      (∀ x ∈ s.methods, c.active (noDoc x.attrs) = true → Requires w a x.fn) ∧
        ∀ p, .ty p ∈ m.generics.params → w.user a (.name p.id)) := by
    intro s hs hsa
    have hd := S.structs _ (struct_strip (c := c) (L.subs s hs).struct hsa) _ rfl
    rw [has_decl S.toOk hd, List.filter_append, fields_cfg, phantoms_strip hp, List.map_append, nophantom, eg,
      ← phantoms_have]
    have := fields_have (w := w) (a := a) (md := s.modname) (l := s.methods.filter fun x => c.active (noDoc x.attrs))
      (fun x hx => { S.toOk with has := fun d hd => S.subs s hs hsa x (inl.1 hx).1 (inl.1 hx).2 d hd }) ?_
    · simp only [inl, and_imp] at this
      rw [← this]
      simp only [List.mem_append, or_imp, forall_and]
    · intro x hx
      obtain ⟨t, ht, rfl⟩ := List.mem_map.1 hs
      exact bt t (uniqueTraits_sub ht) x (inl.1 hx).1
  have hd := S.structs _ (struct_strip (c := c) L.struct ha) _ rfl
  rw [has_decl S.toOk hd, mainFields, List.filter_append, List.filter_append, fields_cfg, phantoms_strip hp,
    liveSubs_filter c mi _ (fun x : Field => c.active x.attrs) (fun s => rfl), List.map_append, nophantom, List.map_append]
  simp only [List.mem_append, or_imp, forall_and]
  rw [hown, eg, phantoms_have]
  constructor
  · rintro ⟨⟨k1, k2⟩, k3⟩
    refine ⟨k3, k2, fun s hs hsa => ?_⟩
    cases hst : s.allStatic with
    | true =>
      intro x hx _
      obtain ⟨t, ht, rfl⟩ := List.mem_map.1 hs
      obtain ⟨b, -, -, e⟩ := bt t (uniqueTraits_sub ht) x hx
      exact fun _ k => absurd (static_kind e (List.all_eq_true.1 hst x hx)) k
    | false =>
      refine ((hsub s hs hsa).1 (k1 _ (List.mem_map.2 ⟨_, List.mem_map.2 ⟨s, ?_, rfl⟩, rfl⟩))).1
      exact List.mem_filter.2 ⟨hs, by simp [hst, hsa]⟩
  · rintro ⟨k1, k2, k3⟩
    refine ⟨⟨fun t ht => ?_, k2⟩, k1⟩
    obtain ⟨f, hf, rfl⟩ := List.mem_map.1 ht
    obtain ⟨s, hs, rfl⟩ := List.mem_map.1 hf
    obtain ⟨hs, h2⟩ := List.mem_filter.1 hs
    rw [Bool.and_eq_true] at h2
    exact (hsub s hs h2.2).2 ⟨k3 s hs h2.2, k1⟩

end Mockall.Props
