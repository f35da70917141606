import Verif.Props.DeriveAuto
import Verif.Props.DeriveStruct

/-! # Examples for C94 -/

namespace Mockall.Props

open Derive Spec

/-- A program that consists of one mock. -/
def oneMock (user : AutoTrait → Ty → Prop) (mi : MockItemStruct) (items : List Item) : World where
  decls := libDecls ++ mi.modDecls ++ items.filterMap Item.decl
  user := user

theorem unique_of_nodup {l : List Decl} (h : (l.map Decl.path).Nodup) :
    ∀ d ∈ l, ∀ e ∈ l, d.path = e.path → d.fields = e.fields := by
  induction l with
  | nil => exact fun d hd => (List.not_mem_nil hd).elim
  | cons x l ih =>
    rw [List.map_cons, List.nodup_cons] at h
    intro d hd e he hp
    rcases List.mem_cons.1 hd with rfl | hd' <;> rcases List.mem_cons.1 he with rfl | he'
    · rfl
    · exact absurd (List.mem_map.2 ⟨e, he', hp.symm⟩) h.1
    · exact absurd (List.mem_map.2 ⟨d, hd', hp⟩) h.1
    · exact ih h.2 d hd' e he' hp

theorem oneMock_struct {user : AutoTrait → Ty → Prop} {mi : MockItemStruct} {items : List Item}
    (h : ((libDecls ++ mi.modDecls ++ items.filterMap Item.decl).map Decl.path).Nodup) :
    (oneMock user mi items).Struct mi items where
  lib _ hd := List.mem_append_left _ (List.mem_append_left _ hd)
  unique := unique_of_nodup h
  mods _ hd := List.mem_append_left _ (List.mem_append_right _ hd)
  structs i hi _ hd := List.mem_append_right _ (List.mem_filterMap.2 ⟨i, hi, hd⟩)

/-- A mock with a type parameter `T` and methods that return `&X`, `&mut Y`, `&U` for a parameter of the method, and
a value; with a static function; and with a trait, a method of which returns `&Z`. -/
def exAuto : MockableStruct where
  name := "MockFoo"
  generics := { angle := true, params := [.ty { id := "T" }] }
  methods := [
    { sig := { ident := "get", inputs := [selfArg], output := .ty (.ref none false (.name "X")) } },
    { sig := { ident := "get_mut", inputs := [selfArg], output := .ty (.ref none true (.name "Y")) } },
    { sig := { ident := "any", generics := { angle := true, params := [.ty { id := "U", bounds := [.lt "static"] }] }
               inputs := [selfArg, .typed [] (.ident false false "u" false) (.name "U")], output := .ty (.ref none false (.name "U")) } },
    { sig := { ident := "value", inputs := [selfArg], output := .ty (.name "V") } },
    { sig := { ident := "stat", output := .ty (.name "V") } }]
  impls := [
    { trait := some { segs := [.of "A"] }, selfTy := .path false [.mk "MockFoo" (.angle [.ty (.name "T")])]
      items := [.fn { sig := { ident := "bar", inputs := [selfArg], output := .ty (.ref none false (.name "Z")) } }] }]

/-- What is required of which types, and the paths of all types. -/
def exAutoShown : Option (List (Bool × Kind × Ty) × List (List (Bool × Kind × Ty)) × Bool) :=
  match mockItemStruct (fun _ => 0) exAuto with
  | .error _ => none
  | .ok mi => match mi.items with
    | .error _ => none
    | .ok items => some (mi.methods.map (fun x => (x.fn.isMethodGeneric, x.fn.kind, x.fn.ownedOutput)),
        mi.substructs.map (fun s => s.methods.map fun x => (x.fn.isMethodGeneric, x.fn.kind, x.fn.ownedOutput)),
        decide ((libDecls ++ mi.modDecls ++ items.filterMap Item.decl).map Decl.path).Nodup)

set_option synthInstance.maxSize 1000 in
theorem exAuto_shown : exAutoShown = some (
    [(false, .ref, .name "X"), (false, .refMut, .name "Y"), (true, .ref, .name "U"), (false, .static, .name "V"),
      (false, .static, .name "V")],
    [[(false, .ref, .name "Z")]], true) := by decide +kernel

/-- `C94_struct` applies to it: the mock has `Send` or `Sync` iff `T`, `X`, `Y` and `Z` do. -/
theorem C94_inhabited (user : AutoTrait → Ty → Prop) : ∃ mi items, mockItemStruct (fun _ => 0) exAuto = .ok mi ∧
    mi.items = .ok items ∧ (oneMock user mi items).Struct mi items ∧ Wf exAuto.generics ∧
    (∀ f ∈ exAuto.methods, Wf f.sig.generics) ∧ (∀ i ∈ exAuto.impls, ∀ f, .fn f ∈ i.items → Wf f.sig.generics) ∧
    ∀ a, HasAuto (oneMock user mi items) a (.item ["MockFoo"]) ↔
      user a (.name "T") ∧ user a (.name "X") ∧ user a (.name "Y") ∧ user a (.name "Z") := by
  have hs := exAuto_shown
  unfold exAutoShown at hs
  split at hs
  · cases hs
  · rename_i mi hm
    split at hs
    · cases hs
    · rename_i items hi
      simp only [Option.some.injEq, Prod.mk.injEq, decide_eq_true_eq] at hs
      obtain ⟨h1, h2, h3⟩ := hs
      have S := oneMock_struct (user := user) h3
      have g1 : Wf exAuto.generics := by simp [Wf, exAuto]
      have g2 : ∀ f ∈ exAuto.methods, Wf f.sig.generics := by simp [Wf, exAuto]
      have g3 : ∀ i ∈ exAuto.impls, ∀ f, .fn f ∈ i.items → Wf f.sig.generics := by simp [Wf, exAuto]
      refine ⟨mi, items, hm, hi, S, g1, g2, g3, fun a => ?_⟩
      have hn : mi.name = "MockFoo" := by
        simp only [mockItemStruct, gen_bind_ok, gen_pure_ok] at hm
        obtain ⟨ms, -, ts, -, rfl⟩ := hm
        rfl
      have e := C94_struct (w := oneMock user mi items) (a := a) _ _ _ _ hm hi g1 g2 g3 S
      rw [hn] at e
      rw [e]
      have q1 : (∀ x ∈ mi.methods, Requires (oneMock user mi items) a x.fn) ↔
          ∀ y ∈ mi.methods.map (fun x => (x.fn.isMethodGeneric, x.fn.kind, x.fn.ownedOutput)),
            y.1 = false → y.2.1 ≠ .static → user a y.2.2 := by
        simp only [List.mem_map, forall_exists_index, and_imp, forall_apply_eq_imp_iff₂]; rfl
      have q2 : (∀ s ∈ mi.substructs, ∀ x ∈ s.methods, Requires (oneMock user mi items) a x.fn) ↔
          ∀ l ∈ mi.substructs.map (fun s => s.methods.map fun x => (x.fn.isMethodGeneric, x.fn.kind, x.fn.ownedOutput)),
            ∀ y ∈ l, y.1 = false → y.2.1 ≠ .static → user a y.2.2 := by
        simp only [List.mem_map, forall_exists_index, and_imp, forall_apply_eq_imp_iff₂]; rfl
      rw [q1, q2, h1, h2]
      simp [exAuto, oneMock, and_assoc]

/-! ## With conditional compilation -/

/-- The part of a program that consists of one mock which is compiled. -/
def cfgDecls (c : Config) (mi : MockItemStruct) (items : List Item) : List Decl :=
  libDecls ++
    (mi.methods.filter fun x => c.active (noDoc x.attrs)).flatMap (fun x => x.fn.decls [mi.modname, x.innerMod]) ++
    (mi.substructs.filter fun s => c.active (noDocAsync s.attrs)).flatMap (fun s =>
      (s.methods.filter fun x => c.active (noDoc x.attrs)).flatMap fun x => x.fn.decls [s.modname, x.innerMod]) ++
    (c.strip items).filterMap Item.decl

theorem cfgDecls_compiled {user : AutoTrait → Ty → Prop} {c : Config} {mi : MockItemStruct} {items : List Item}
    (h : ((cfgDecls c mi items).map Decl.path).Nodup) :
    World.Compiled { decls := cfgDecls c mi items, user := user } c mi items where
  lib _ hd := by simp [cfgDecls, hd]
  unique := unique_of_nodup h
  mods x hx ha d hd := List.mem_append_left _ (List.mem_append_left _ (List.mem_append_right _
    (List.mem_flatMap.2 ⟨x, List.mem_filter.2 ⟨hx, ha⟩, hd⟩)))
  subs s hs hsa x hx ha d hd := List.mem_append_left _ (List.mem_append_right _
    (List.mem_flatMap.2 ⟨s, List.mem_filter.2 ⟨hs, hsa⟩, List.mem_flatMap.2 ⟨x, List.mem_filter.2 ⟨hx, ha⟩, hd⟩⟩))
  structs i hi _ hd := List.mem_append_right _ (List.mem_filterMap.2 ⟨i, hi, hd⟩)

/-- A mock with a method `get` that returns `&X`, but `&W` on Windows; and with a trait on Windows only. -/
def exAutoCfg : MockableStruct where
  name := "MockFoo"
  generics := { angle := true, params := [.ty { id := "T" }] }
  methods := [
    { attrs := [.plain [] "cfg" ["unix"]]
      sig := { ident := "get", inputs := [selfArg], output := .ty (.ref none false (.name "X")) } },
    { attrs := [.plain [] "cfg" ["windows"]]
      sig := { ident := "get", inputs := [selfArg], output := .ty (.ref none false (.name "W")) } }]
  impls := [
    { attrs := [.plain [] "cfg" ["windows"]]
      trait := some { segs := [.of "A"] }, selfTy := .path false [.mk "MockFoo" (.angle [.ty (.name "T")])]
      items := [.fn { sig := { ident := "bar", inputs := [selfArg], output := .ty (.ref none false (.name "Z")) } }] }]

/-- What is required of which types if it is compiled, and the paths of all types. -/
def exAutoCfgShown (c : Config) : Option (List (Bool × Bool × Kind × Ty) × List (Bool × List (Bool × Bool × Kind × Ty)) × Bool) :=
  match mockItemStruct (fun _ => 0) exAutoCfg with
  | .error _ => none
  | .ok mi => match mi.items with
    | .error _ => none
    | .ok items => some (
        mi.methods.map (fun x => (c.active (noDoc x.attrs), x.fn.isMethodGeneric, x.fn.kind, x.fn.ownedOutput)),
        mi.substructs.map (fun s => (c.active (noDocAsync s.attrs),
          s.methods.map fun x => (c.active (noDoc x.attrs), x.fn.isMethodGeneric, x.fn.kind, x.fn.ownedOutput))),
        decide ((cfgDecls c mi items).map Decl.path).Nodup)

set_option synthInstance.maxSize 1000 in
theorem exAutoCfg_shown : exAutoCfgShown unix = some (
    [(true, false, .ref, .name "X"), (false, false, .ref, .name "W")],
    [(false, [(true, false, .ref, .name "Z")])], true) := by decide +kernel

/-- `C94_cfg` applies to it: on Unix, the mock has `Send` or `Sync` iff `T` and `X` do. -/
theorem C94_cfg_inhabited (user : AutoTrait → Ty → Prop) : ∃ mi items, mockItemStruct (fun _ => 0) exAutoCfg = .ok mi ∧
    mi.items = .ok items ∧ World.Compiled { decls := cfgDecls unix mi items, user := user } unix mi items ∧
    ∀ a, HasAuto { decls := cfgDecls unix mi items, user := user } a (.item ["MockFoo"]) ↔
      user a (.name "T") ∧ user a (.name "X") := by
  have hs := exAutoCfg_shown
  unfold exAutoCfgShown at hs
  split at hs
  · cases hs
  · rename_i mi hm
    split at hs
    · cases hs
    · rename_i items hi
      simp only [Option.some.injEq, Prod.mk.injEq, decide_eq_true_eq] at hs
      obtain ⟨h1, h2, h3⟩ := hs
      have S := cfgDecls_compiled (user := user) h3
      refine ⟨mi, items, hm, hi, S, fun a => ?_⟩
      have hn : mi.name = "MockFoo" := by
        simp only [mockItemStruct, gen_bind_ok, gen_pure_ok] at hm
        obtain ⟨ms, -, ts, -, rfl⟩ := hm
        rfl
      have e := C94_cfg (a := a) _ _ _ _ _ hm hi (by simp [Wf, exAutoCfg]) (by simp [Wf, exAutoCfg])
        (by simp [Wf, exAutoCfg]) (by simp [exAutoCfg]) S
      rw [hn] at e
      rw [e]
      have q1 : (∀ x ∈ mi.methods, unix.active (noDoc x.attrs) = true →
            Requires { decls := cfgDecls unix mi items, user := user } a x.fn) ↔
          ∀ y ∈ mi.methods.map (fun x => (unix.active (noDoc x.attrs), x.fn.isMethodGeneric, x.fn.kind, x.fn.ownedOutput)),
            y.1 = true → y.2.1 = false → y.2.2.1 ≠ .static → user a y.2.2.2 := by
        simp only [List.mem_map, forall_exists_index, and_imp, forall_apply_eq_imp_iff₂]; rfl
      have q2 : (∀ s ∈ mi.substructs, unix.active (noDocAsync s.attrs) = true → ∀ x ∈ s.methods,
            unix.active (noDoc x.attrs) = true → Requires { decls := cfgDecls unix mi items, user := user } a x.fn) ↔
          ∀ l ∈ mi.substructs.map (fun s => (unix.active (noDocAsync s.attrs), s.methods.map fun x =>
              (unix.active (noDoc x.attrs), x.fn.isMethodGeneric, x.fn.kind, x.fn.ownedOutput))),
            l.1 = true → ∀ y ∈ l.2, y.1 = true → y.2.1 = false → y.2.2.1 ≠ .static → user a y.2.2.2 := by
        simp only [List.mem_map, forall_exists_index, and_imp, forall_apply_eq_imp_iff₂]; rfl
      rw [q1, q2, h1, h2]
      simp [exAutoCfg]

end Mockall.Props
