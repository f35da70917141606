import Verif.Props.DeriveUsed
import Verif.Props.DeriveScopesEx
import Verif.Props.DeriveAutoEx

/-! # Examples for C95 -/

namespace Mockall.Props

open Derive Spec

/-- `fn get<'a, U: 'static>(u: U) -> X<'a>`, with or without `&self`, of a struct with parameters `<'s, T>`. -/
def exUsed (self : List FnArg) : Builder where
  sig := { ident := "get", generics := { angle := true, params := [.lt ⟨"a", []⟩, .ty { id := "U", bounds := [.lt "static"] }] },
           inputs := self ++ [arg "u" (.name "U")], output := .ty (withLt "X" "a") }
  structGenerics := some { angle := true, params := [.lt ⟨"s", []⟩, .ty { id := "T" }] }

theorem exUsed_hyps (self : List FnArg) : Wf ((exUsed self).structGenerics.getD {}) ∧ Wf (exUsed self).sig.generics ∧
    (∀ a, IsLtParam ((exUsed self).structGenerics.getD {}) (exUsed self).sig.generics a →
      PlainLtRet a (exUsed self).sig.output) ∧
    ¬ IsLtParam ((exUsed self).structGenerics.getD {}) (exUsed self).sig.generics "__mockall_lt" := by
  refine ⟨fun h => by simp [exUsed] at h, fun h => by simp [exUsed] at h, fun a _ => ?_, ?_⟩
  · simp [exUsed, withLt, PlainLtRet, PlainLt, unseen, unseenSegs, unseenSeg, unseenArgs, unseenGArgs, unseenGArg, binders,
      bindersSegs, bindersSeg, bindersArgs, bindersGArgs, bindersGArg]
  · simp [exUsed, IsLtParam, lifetimes, ltParams]

/-- What is shown of a function: the names of the types, and the parameters of each. -/
def typesShown (f : MockFn) (sg : Generics) : List (String × List String) :=
  (f.typeSites sg).map fun s => (s.name, s.generics.flatMap fun g => g.params.map fun p => (Spec.GParam.key p).2)

/-- The method's types have four parameters, and all are used. -/
theorem C95_method_inhabited : ∃ f, build (exUsed [selfRef none]) = .ok f ∧
    typesShown f ((exUsed []).structGenerics.getD {}) = [("Matcher", ["T", "U"]), ("Common", ["T", "U"]),
      ("Rfunc", ["T", "U", "a"]), ("Expectation", ["T", "U", "a"]), ("Expectations", ["T", "U", "a"]),
      ("GenericExpectations", [])] ∧
    ∀ s ∈ f.typeSites ((exUsed []).structGenerics.getD {}), UsesTypes s ∧ UsesLts s := by
  obtain ⟨h1, h2, h3, h4⟩ := exUsed_hyps [selfRef none]
  have e : ∃ f, build (exUsed [selfRef none]) = .ok f ∧ f.isStatic = false ∧
      typesShown f ((exUsed []).structGenerics.getD {}) = [("Matcher", ["T", "U"]), ("Common", ["T", "U"]),
        ("Rfunc", ["T", "U", "a"]), ("Expectation", ["T", "U", "a"]), ("Expectations", ["T", "U", "a"]),
        ("GenericExpectations", [])] := ⟨_, rfl, by decide +kernel, by decide +kernel⟩
  obtain ⟨f, hf, hst, hsh⟩ := e
  refine ⟨f, hf, hsh, fun s hs => ⟨C95_types _ f h1 h2 hf s hs, ?_⟩⟩
  exact (C95_lifetimes _ f h1 h2 h3 h4 hf).2.2 (fun ⟨k, _⟩ => by simp [hst] at k) s hs

/-- `ExpectationGuard` of a static function with generics has a lifetime that it does not use, if the function returns
something with a lifetime that is a parameter. -/
theorem C95_guard_unused : ∃ f, build (exUsed []) = .ok f ∧
    typesShown f ((exUsed []).structGenerics.getD {}) = [("Matcher", ["T", "U"]), ("Common", ["T", "U"]),
      ("Rfunc", ["T", "U", "a"]), ("Expectation", ["T", "U", "a"]), ("Expectations", ["T", "U", "a"]),
      ("GenericExpectations", []), ("ExpectationGuard", ["T", "U", "a", "__mockall_lt"]), ("Context", ["T"])] ∧
    (∀ s ∈ f.typeSites ((exUsed []).structGenerics.getD {}), UsesTypes s) ∧
    ¬ ∀ s ∈ f.typeSites ((exUsed []).structGenerics.getD {}), UsesLts s := by
  obtain ⟨h1, h2, h3, h4⟩ := exUsed_hyps []
  have e : ∃ f, build (exUsed []) = .ok f ∧ f.isStatic = true ∧ f.isExpectationGeneric = true ∧
      typesShown f ((exUsed []).structGenerics.getD {}) = [("Matcher", ["T", "U"]), ("Common", ["T", "U"]),
        ("Rfunc", ["T", "U", "a"]), ("Expectation", ["T", "U", "a"]), ("Expectations", ["T", "U", "a"]),
        ("GenericExpectations", []), ("ExpectationGuard", ["T", "U", "a", "__mockall_lt"]), ("Context", ["T"])] :=
    ⟨_, rfl, by decide +kernel, by decide +kernel, by decide +kernel⟩
  obtain ⟨f, hf, hst, hg, hsh⟩ := e
  refine ⟨f, hf, hsh, C95_types _ f h1 h2 hf, fun H => ?_⟩
  refine (C95_lifetimes _ f h1 h2 h3 h4 hf).2.1 H ⟨hst, hg, "a", .inr ⟨rfl, ?_⟩, ?_⟩
  · simp [exUsed, lifetimes, ltParams]
  · simp [exUsed, BehindLt, behind, withLt, freeLts, freeLtsSegs, freeLtsSeg, freeLtsArgs, freeLtsGArgs, freeLtsGArg]

/-- A mock that has both functions. -/
def exUsedMock : MockableStruct where
  name := "MockFoo"
  generics := (exUsed []).structGenerics.getD {}
  methods := [
    { sig := (exUsed [selfRef none]).sig },
    { sig := { (exUsed []).sig with ident := "stat" } }]

/-- `C95_methods` and `C95_method_lifetimes` apply to it: all types but the guard of `stat` use their parameters. -/
theorem C95_methods_inhabited : ∃ mi, mockItemStruct (fun _ => 0) exUsedMock = .ok mi ∧
    mi.methods.map (fun x => (x.fn.isStatic, (x.fn.typeSites exUsedMock.generics).length)) = [(false, 6), (true, 8)] ∧
    ∀ x ∈ mi.methods, ∀ s ∈ x.fn.typeSites exUsedMock.generics, UsesTypes s ∧
      ((x.fn.isStatic = true → s.name ≠ "ExpectationGuard") → UsesLts s) := by
  have e : ∃ mi, mockItemStruct (fun _ => 0) exUsedMock = .ok mi ∧
      mi.methods.map (fun x => (x.fn.isStatic, (x.fn.typeSites exUsedMock.generics).length)) = [(false, 6), (true, 8)] :=
    ⟨_, rfl, by decide +kernel⟩
  obtain ⟨mi, hm, hsh⟩ := e
  have hp : ∀ f ∈ exUsedMock.methods, PlainFn exUsedMock.generics f := by
    intro f hf
    simp only [exUsedMock, List.mem_cons, List.not_mem_nil, or_false] at hf
    rcases hf with rfl | rfl
    · exact (exUsed_hyps [selfRef none]).2
    · exact (exUsed_hyps []).2
  have hi : ∀ i ∈ exUsedMock.impls, ∀ f, .fn f ∈ i.items → PlainFn exUsedMock.generics f := nofun
  have hg : Wf exUsedMock.generics := (exUsed_hyps []).1
  refine ⟨mi, hm, hsh, fun x hx s hs => ⟨?_, fun hn => ?_⟩⟩
  · exact (C95_methods _ _ mi hm hg (fun f hf => (hp f hf).1) (fun i h f hf => (hi i h f hf).1)).1 x hx s hs
  · exact C95_method_lifetimes _ _ mi hm hg hp hi x (.inl hx) s hs hn

/-- The structs of the mock of `exAuto`, with the numbers of their parameters and fields. -/
def exAutoStructs : Option (List (Ident × Nat × Nat)) :=
  match mockItemStruct (fun _ => 0) exAuto with
  | .error _ => none
  | .ok mi => match mi.items with
    | .error _ => none
    | .ok items => some (items.filterMap fun
      | .struct hd n fs => some (n, hd.generics.params.length, fs.length)
      | _ => none)

/-- The struct and the substruct have a field for their type parameter each. -/
example : exAutoStructs = some [("MockFoo", 1, 6), ("MockFoo_A", 1, 2)] := by decide +kernel

end Mockall.Props
