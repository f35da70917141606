import Verif.Derive.Owned
import Verif.Derive.Modules
import Verif.Spec.Owned

/-! # C44: owned form of borrowed return types -/

namespace Mockall.Props

open Derive Spec

/-- If the target is one of the bare names that the code replaces, it stands for the std item in `P`;
and `Box` is std's (it is in every generated module, see `privModule`). -/
structure StdNames (P : Place) (target : Ty) : Prop where
  str : target = .name "str" → P.scope "str" = none
  cstr : target = .name "CStr" → P.scope "CStr" = some ["<extern>", "std", "ffi", "CStr"]
  osstr : target = .name "OsStr" → P.scope "OsStr" = some ["<extern>", "std", "ffi", "OsStr"]
  path : target = .name "Path" → P.scope "Path" = some ["<extern>", "std", "path", "Path"]
  box : P.scope "Box" = some ["<extern>", "std", "boxed", "Box"]

/-- C44, first half.  Full statement: for every module and every function returning `&'a target` or
`&'a mut target`, `'a` not `'static`, a reference to the owned type stored in the expectation can be used
as a reference to `target`; the type `output` is a reference to that owned type.

Partial: if the target is a bare `str`, `Path`, `CStr` or `OsStr`, that has to be std's.  Otherwise false, see
`C44_own_path`. -/
theorem C44_owned_derefs_partial (P : Place) (lt : Option Lt) (hlt : lt ≠ some "static") (m : Bool)
    (target : Ty) (hP : StdNames P target) :
    Derefs P (outputs (.ref lt m target)).2.1 target ∧
    (outputs (.ref lt m target)).1 = .ref lt m (outputs (.ref lt m target)).2.1 := by
  simp only [outputs, destrify, if_neg hlt]
  split
  · rename_i h
    subst h
    simp only [dedynify, stdPath, ownify, if_neg hlt, and_true]
    exact .cstring (.inl rfl) (.inr ⟨_, rfl, hP.cstr rfl⟩)
  split
  · rename_i h
    subst h
    simp only [dedynify, stdPath, ownify, if_neg hlt, and_true]
    exact .osstring (.inl rfl) (.inr ⟨_, rfl, hP.osstr rfl⟩)
  split
  · rename_i h
    subst h
    simp only [dedynify, stdPath, ownify, if_neg hlt, and_true]
    exact .pathbuf (.inl rfl) (.inr ⟨_, rfl, hP.path rfl⟩)
  split
  · rename_i h
    subst h
    simp only [dedynify, stdPath, ownify, if_neg hlt, and_true]
    exact .string (.inl rfl) (hP.str rfl)
  cases target <;> simp only [dedynify, stdVec, ownify, if_neg hlt, and_true] <;>
    first | exact .same _ | exact .vec _ | exact .box _ _ hP.box

/-- What has a special owned form: the four bare names, slices and trait objects. -/
def Special (t : Ty) : Prop :=
  t ∈ [Ty.name "str", .name "CStr", .name "OsStr", .name "Path"] ∨ (∃ e, t = .slice e) ∨
    (∃ b, t = .traitObject b)

/-- C44, second half: without special form a borrowed type is stored as it is, and boxing happens for
trait objects only. -/
theorem C44_plain_unchanged (lt : Option Lt) (hlt : lt ≠ some "static") (m : Bool) (target : Ty)
    (h : ¬ Special target) : outputs (.ref lt m target) = (.ref lt m target, target, false) := by
  have h1 : target ≠ .name "str" := fun e => h (.inl (by simp [e]))
  have h2 : target ≠ .name "CStr" := fun e => h (.inl (by simp [e]))
  have h3 : target ≠ .name "OsStr" := fun e => h (.inl (by simp [e]))
  have h4 : target ≠ .name "Path" := fun e => h (.inl (by simp [e]))
  simp only [outputs, destrify, if_neg hlt, if_neg h1, if_neg h2, if_neg h3, if_neg h4]
  cases target <;> simp only [dedynify, ownify, if_neg hlt]
  · exact absurd (.inr (.inl ⟨_, rfl⟩)) h
  · exact absurd (.inr (.inr ⟨_, rfl⟩)) h

/-- C44: types that are not references, and `'static` references, are stored as declared, except that
`&'static dyn A` gets parentheses. -/
theorem C44_static_unchanged (t : Ty) (h : ∀ lt m e, t = .ref lt m e → lt = some "static") :
    (outputs t = (t, t, false)) ∨
    (∃ m b, t = .ref (some "static") m (.traitObject b) ∧
      outputs t = (.ref (some "static") m (.paren (.traitObject b)),
        .ref (some "static") m (.paren (.traitObject b)), false)) := by
  cases t with
  | ref lt m e =>
    obtain rfl := h lt m e rfl
    cases e with
    | traitObject b => exact .inr ⟨m, b, rfl, rfl⟩
    | _ => exact .inl rfl
  | _ => exact .inl rfl

theorem sized_std (P : Place) (l : List Seg) (h : ∀ p ∈ [["std", "ffi", "CStr"],
    ["std", "ffi", "OsStr"], ["std", "path", "Path"]], l ≠ p.map Seg.of) :
    ¬ Unsized P (.path true l) := by
  have hn : ∀ p, p ∈ [["std", "ffi", "CStr"], ["std", "ffi", "OsStr"], ["std", "path", "Path"]] →
      ¬ IsStd P (.path true l) p := by
    rintro p hp (hc | ⟨i, hc, _⟩)
    · injection hc with _ hc; exact h p hp hc
    · injection hc with hc; cases hc
  intro hu
  generalize ht : Ty.path true l = t at hu
  cases hu with
  | str => injection ht with ht; cases ht
  | slice => cases ht
  | dyn => cases ht
  | cstr hs => subst ht; exact hn _ (by simp) hs
  | osstr hs => subst ht; exact hn _ (by simp) hs
  | path hs => subst ht; exact hn _ (by simp) hs
  | paren => cases ht
  | group => cases ht

theorem sized_box (P : Place) (i : Ident) (l : List GArg) :
    ¬ Unsized P (.path false [.mk i (.angle l)]) := by
  have hn : ∀ p, ¬ IsStd P (.path false [.mk i (.angle l)]) p := by
    rintro p (hc | ⟨j, hc, _⟩)
    · injection hc with hc; cases hc
    · injection hc with _ hc; injection hc with hc; injection hc with _ hc; cases hc
  intro hu
  generalize ht : Ty.path false [.mk i (.angle l)] = t at hu
  cases hu with
  | str => injection ht with _ ht; injection ht with ht; injection ht with _ ht; cases ht
  | slice => cases ht
  | dyn => cases ht
  | cstr hs => subst ht; exact hn _ hs
  | osstr hs => subst ht; exact hn _ hs
  | path hs => subst ht; exact hn _ hs
  | paren => cases ht
  | group => cases ht

/-- C44, the owned type can be stored.  Full statement: for every borrowed `target` the stored type has
a size known to the compiler.

Partial: provided that `target` has a size itself, or is one of the forms the code looks for.  Otherwise
false, see `C44_unsized`. -/
theorem C44_sized_partial (P : Place) (lt : Option Lt) (hlt : lt ≠ some "static") (m : Bool)
    (target : Ty) (h : Special target ∨ ¬ Unsized P target) :
    ¬ Unsized P (outputs (.ref lt m target)).2.1 := by
  by_cases hs : Special target
  · rcases hs with hs | ⟨e, rfl⟩ | ⟨b, rfl⟩
    · simp only [List.mem_cons, List.not_mem_nil, or_false] at hs
      rcases hs with rfl | rfl | rfl | rfl <;>
        simp only [outputs, destrify, if_neg hlt, Ty.name, Seg.of, Ty.path.injEq, List.cons.injEq,
          Seg.mk.injEq, String.reduceEq, and_false, and_true, if_true, if_false, dedynify,
          ownify, stdPath] <;>
        exact sized_std P _ (by simp [Seg.of])
    · have h1 : ∀ i, Ty.slice e ≠ .name i := fun i hc => by cases hc
      simp only [outputs, destrify, if_neg hlt, dedynify, ownify, stdVec, if_neg (h1 _)]
      refine sized_std P _ ?_
      intro p hp
      simp only [List.mem_cons, List.not_mem_nil, or_false] at hp
      rcases hp with rfl | rfl | rfl <;> simp [Seg.of]
    · have h1 : ∀ i, Ty.traitObject b ≠ .name i := fun i hc => by cases hc
      simp only [outputs, destrify, if_neg hlt, dedynify, ownify, if_neg (h1 _)]
      exact sized_box P _ _
  · rw [C44_plain_unchanged lt hlt m target hs]
    exact h.resolve_left hs

/-- A module with std's names, as if it started with `use std::{ffi::{CStr, OsStr}, path::Path};`. -/
def stdMod : Place where
  path := ["a"]
  scope x :=
    if x ∈ ["CStr", "OsStr"] then some ["<extern>", "std", "ffi", x]
    else if x = "Path" then some ["<extern>", "std", "path", x]
    else none

/-- C44 (sizes) is false for trait objects in parentheses, which are the only way to write
`&(dyn A + Send)`, and for the qualified path `&::std::path::Path`. -/
theorem C44_unsized :
    Unsized stdMod (outputs (.ref none false (.paren (.traitObject
      [.trait false [] false [.of "A"], .trait false [] false [.of "Send"]])))).2.1 ∧
    Unsized stdMod (outputs (.ref none false (.path true [.of "std", .of "path", .of "Path"]))).2.1 := by
  refine ⟨?_, .path (.inl (by decide +kernel))⟩
  rw [C44_plain_unchanged none (by decide) false _ (by
    rintro (h | ⟨_, h⟩ | ⟨_, h⟩)
    · revert h; decide +kernel
    · cases h
    · cases h)]
  exact .paren (.dyn _)

/-- A user's module that declares a type `Path` of its own. -/
def ownPath : Place where
  path := ["a"]
  scope x := if x = "Path" then some ["a", "Path"] else none

/-- C44 is false if `Path` is the user's own type: `&Path` is stored as a `std::path::PathBuf`. -/
theorem C44_own_path :
    (outputs (.ref none false (.name "Path"))).2.1 = stdPath ["path", "PathBuf"] ∧
    ¬ Derefs (ownPath.nest [privModule ["a"] "foo" false false]) (stdPath ["path", "PathBuf"])
      (.name "Path") := by
  refine ⟨by decide +kernel, ?_⟩
  intro h
  have hs : ∀ p, ¬ IsStd (ownPath.nest [privModule ["a"] "foo" false false]) (.name "Path") p := by
    rintro p (hc | ⟨i, hc, hp⟩)
    · injection hc with hc; cases hc
    · simp only [Ty.name, Seg.of, Ty.path.injEq, List.cons.injEq, Seg.mk.injEq] at hc
      obtain ⟨_, ⟨rfl, _⟩, _⟩ := hc
      have : some ["a", "Path"] = some ("<extern>" :: p) := hp
      injection this with this
      injection this with this
      exact absurd this (by decide)
  generalize ht : Ty.name "Path" = t at h hs
  generalize ho : stdPath ["path", "PathBuf"] = o at h
  cases h with
  | same => subst ht; cases ho
  | string => exact absurd ht (by decide +kernel)
  | cstring _ h => exact hs _ h
  | osstring _ h => exact hs _ h
  | pathbuf _ h => exact hs _ h
  | vec => cases ht
  | box i t hi => cases ho

example :
    let Q := stdMod.nest [privModule ["a"] "foo" false false]
    let dynA : Ty := .traitObject [.trait false [] false [.of "A"]]
    (∀ t, StdNames Q t) ∧
    outputs (.ref none false (.slice (.name "u8"))) =
      (.ref none false (stdVec (.name "u8")), stdVec (.name "u8"), false) ∧
    (outputs (.ref (some "a") true (.name "str"))).2.1 = stdPath ["string", "String"] ∧
    outputs (.ref none true dynA) =
      (.ref none true (.path false [.mk "Box" (.angle [.ty dynA])]),
        .path false [.mk "Box" (.angle [.ty dynA])], true) ∧
    ¬ Special (.name "u32") ∧ outputs (.ref none false (.name "u32")) =
      (.ref none false (.name "u32"), .name "u32", false) := by
  refine ⟨fun _ => ⟨fun _ => rfl, fun _ => rfl, fun _ => rfl, fun _ => rfl, rfl⟩, by decide +kernel, by decide +kernel, by decide +kernel, ?_,
    by decide +kernel⟩
  rintro (h | ⟨e, h⟩ | ⟨b, h⟩)
  · revert h; decide +kernel
  · cases h
  · cases h

end Mockall.Props
