import Verif.Props.DeriveMentions
import Verif.Props.DeriveScopesEx

/-! # Examples for C91 -/

namespace Mockall.Props

open Derive Spec

/-- The first and only segment of a type. -/
def bareName : Ty → Option Ident
  | .path false [.mk n _] => some n
  | _ => none

/-- `NamesFree`, computed. -/
def namesFree (f : MockFn) : Bool :=
  (typeParams f.egenerics).all (fun n => !ownTypes.contains n) &&
    (f.argTys ++ f.predTys ++ f.refPredTys ++ [f.output, f.ownedOutput]).all fun t =>
      match bareName t with | some n => !ownTypes.contains n | none => true

theorem namesFree_of {f : MockFn} (h : namesFree f = true) : NamesFree f := by
  intro n hn
  simp only [namesFree, Bool.and_eq_true, List.all_eq_true] at h
  constructor
  · intro k
    have := h.1 n ((typeParams_has _ n).2 k)
    simp [hn] at this
  · rintro t ht args rfl
    have := h.2 _ ht
    simp [bareName, hn] at this

/-- `n` as a bound -/
def traitBound (n : Ident) : Bound := .trait false [] false [.mk n .none]

/-- `<T: Clone> where T: Copy` -/
def boundedStruct : Generics where
  angle := true
  params := [.ty { id := "T", bounds := [traitBound "Clone"] }]
  preds := some [.ty none (.name "T") [traitBound "Copy"]]

/-- `fn get<'a, U: Debug>(&self, t: T, u: U) -> Wrap<'a>`, or without `&self` and returning nothing -/
def boundedGet (isStatic : Bool) : Builder where
  structGenerics := some boundedStruct
  levels := 1
  sig := { ident := "get"
           generics := { angle := true
                         params := [.lt ⟨"a", []⟩, .ty { id := "U", bounds := [traitBound "Debug"] }] }
           inputs := (if isStatic then [] else [selfRef none]) ++ [arg "t" (.name "T"), arg "u" (.name "U")]
           output := if isStatic then .unit else .ty (withLt "Wrap" "a") }

/-- The piece of code of this name has this type in it. -/
def usesType (f : MockFn) (site : String) (n : Ident) (args : List GArg) : Bool :=
  (f.sites boundedStruct).any fun s => s.name = site && decide (Ty.path false [.mk n (.angle args)] ∈ s.tys)

/-- The hypotheses of `C91_types` and `C91_call` are met by a method with bounds: its setter uses
`Expectation<T, U, 'static>`, which is declared with `<T: Clone, U: Debug, 'a> where T: Copy`. -/
example : ∃ f, build (boundedGet false) = .ok f ∧ NamesFree f ∧
    ((boundedGet false).concretize = false ∧ Wf boundedStruct ∧ Wf (boundedGet false).sig.generics) ∧
    f.isStored = true ∧
    usesType f "expect" "Expectation" [.ty (.name "T"), .ty (.name "U"), .lt "static"] = true ∧
    f.egenerics = { angle := true
                    params := [.ty { id := "T", bounds := [traitBound "Clone"] },
                      .ty { id := "U", bounds := [traitBound "Debug"] }, .lt ⟨"a", []⟩]
                    preds := some [.ty none (.name "T") [traitBound "Copy"]] } := by
  obtain ⟨f, hb, h1, h2, h3, h4⟩ := built_with (b := boundedGet false) (P := fun f =>
    namesFree f = true ∧ f.isStored = true ∧
    usesType f "expect" "Expectation" [.ty (.name "T"), .ty (.name "U"), .lt "static"] = true ∧
    f.egenerics = { angle := true
                    params := [.ty { id := "T", bounds := [traitBound "Clone"] },
                      .ty { id := "U", bounds := [traitBound "Debug"] }, .lt ⟨"a", []⟩]
                    preds := some [.ty none (.name "T") [traitBound "Copy"]] }) (by decide +kernel)
  exact ⟨f, hb, namesFree_of h1, ⟨rfl, by simp [Wf, boundedStruct], by simp [Wf, boundedGet]⟩, h2, h3, h4⟩

/-- And by a static one, whose `Context` has a method that returns an `ExpectationGuard<T, U, '__mockall_lt>`. -/
example : ∃ f, build (boundedGet true) = .ok f ∧ NamesFree f ∧ f.isStored = true ∧
    usesType f "Context::expect" "ExpectationGuard" [.ty (.name "T"), .ty (.name "U"), .lt "__mockall_lt"] = true ∧
    usesType f "context" "Context" [.ty (.name "T")] = true ∧
    usesType f "call" "call" [.ty (.name "T"), .ty (.name "U")] = true := by
  obtain ⟨f, hb, h1, h2⟩ := built_with (b := boundedGet true) (P := fun f =>
    namesFree f = true ∧ f.isStored = true ∧
    usesType f "Context::expect" "ExpectationGuard" [.ty (.name "T"), .ty (.name "U"), .lt "__mockall_lt"] = true ∧
    usesType f "context" "Context" [.ty (.name "T")] = true ∧
    usesType f "call" "call" [.ty (.name "T"), .ty (.name "U")] = true) (by decide +kernel)
  exact ⟨f, hb, namesFree_of h1, h2⟩

/-- And by the same with `#[concretize]`: the types that are generated have the parameter of the struct only. -/
example : ∃ f, build { boundedGet true with concretize := true } = .ok f ∧ NamesFree f ∧ f.isStored = true ∧
    usesType f "Context::expect" "ExpectationGuard" [.ty (.name "T"), .lt "__mockall_lt"] = true ∧
    usesType f "context" "Context" [.ty (.name "T")] = true ∧ usesType f "call" "call" [.ty (.name "T")] = true := by
  obtain ⟨f, hb, h1, h2⟩ := built_with (b := { boundedGet true with concretize := true }) (P := fun f =>
    namesFree f = true ∧ f.isStored = true ∧
    usesType f "Context::expect" "ExpectationGuard" [.ty (.name "T"), .lt "__mockall_lt"] = true ∧
    usesType f "context" "Context" [.ty (.name "T")] = true ∧ usesType f "call" "call" [.ty (.name "T")] = true)
    (by decide +kernel)
  exact ⟨f, hb, namesFree_of h1, h2⟩

end Mockall.Props
