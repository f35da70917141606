import Verif.Derive.Generics
import Verif.Spec.Generics
import Verif.Spec.Types
import Verif.Lemmas.FindLts

/-! # C45: splitting lifetimes -/

namespace Mockall.Props

open Derive Spec

/-- The places where `split_lifetimes` does not see lifetimes: inside `Fn(A) -> B`, and the written
type of a receiver `self: T`. -/
def ArgHidden (l : Lt) : FnArg → Prop
  | .receiver _ _ colon t => colon = true ∧ .lt l ∈ leaves t
  | .typed _ _ t => .lt l ∈ unseen ltsBlind t

def RetHidden (l : Lt) : Ret → Prop
  | .unit => False
  | .ty t => .lt l ∈ unseen ltsBlind t

theorem argLts_sound : ∀ (args : List FnArg) (L : List Lt), argLts args = .ok L → ∀ l ∈ L,
    ∃ a ∈ args, ArgHas l a
  | [], L, h => by simp only [argLts, gen_pure_ok] at h; subst h; simp
  | .receiver r m c t :: args, L, h => by
    simp only [argLts, gen_bind_ok, gen_pure_ok] at h
    obtain ⟨b, hb, rfl⟩ := h
    intro l hl
    rcases List.mem_append.1 hl with hl | hl
    · refine ⟨_, List.mem_cons_self, .inl ?_⟩
      split at hl
      · rw [List.mem_singleton] at hl; rw [hl]
      · simp at hl
    · obtain ⟨a, ha, k⟩ := argLts_sound args b hb l hl
      exact ⟨a, List.mem_cons_of_mem _ ha, k⟩
  | .typed at' p t :: args, L, h => by
    simp only [argLts, gen_bind_ok, gen_pure_ok] at h
    obtain ⟨a, ha, b, hb, rfl⟩ := h
    intro l hl
    rcases List.mem_append.1 hl with hl | hl
    · exact ⟨_, List.mem_cons_self, (findLts_lts t a ha).1 l hl⟩
    · obtain ⟨a, ha, k⟩ := argLts_sound args b hb l hl
      exact ⟨a, List.mem_cons_of_mem _ ha, k⟩

theorem argLts_complete : ∀ (args : List FnArg) (L : List Lt), argLts args = .ok L → ∀ l,
    (∃ a ∈ args, ArgHas l a) → (∀ a ∈ args, ¬ ArgHidden l a) → l ∈ L
  | [], L, h => by simp
  | .receiver r m c t :: args, L, h => by
    simp only [argLts, gen_bind_ok, gen_pure_ok] at h
    obtain ⟨b, hb, rfl⟩ := h
    rintro l ⟨a, ha, k⟩ hid
    apply List.mem_append.2
    rcases List.mem_cons.1 ha with rfl | ha
    · rcases k with rfl | k
      · exact .inl (by simp)
      · exact absurd k (hid _ List.mem_cons_self)
    · exact .inr (argLts_complete args b hb l ⟨a, ha, k⟩ fun a ha => hid a (List.mem_cons_of_mem _ ha))
  | .typed at' p t :: args, L, h => by
    simp only [argLts, gen_bind_ok, gen_pure_ok] at h
    obtain ⟨a, ha, b, hb, rfl⟩ := h
    rintro l ⟨x, hx, k⟩ hid
    apply List.mem_append.2
    rcases List.mem_cons.1 hx with rfl | hx
    · exact .inl (((findLts_lts t a ha).2 l k).resolve_right (hid _ List.mem_cons_self))
    · exact .inr (argLts_complete args b hb l ⟨x, hx, k⟩ fun a ha => hid a (List.mem_cons_of_mem _ ha))

theorem retLts_iff {rt : Ret} {R : List Lt} (h : retLts rt = .ok R) (l : Lt) :
    (l ∈ R → RetHas l rt) ∧ (RetHas l rt → ¬ RetHidden l rt → l ∈ R) := by
  cases rt with
  | unit => simp only [retLts, gen_pure_ok] at h; subst h; simp [RetHas, leavesRet]
  | ty t =>
    have := findLts_lts t R h
    exact ⟨this.1 l, fun k hid => (this.2 l k).resolve_right hid⟩

theorem argLts_total : ∀ (args : List FnArg),
    (∀ as p t, .typed as p t ∈ args → All LtsSupported (leaves t)) → Gen.succeeds (argLts args)
  | [], _ => succeeds_pure
  | .receiver _ _ _ _ :: args, h =>
    succeeds_seq (argLts_total args fun _ _ _ k => h _ _ _ (List.mem_cons_of_mem _ k))
      fun _ => succeeds_pure
  | .typed _ _ t :: args, h =>
    succeeds_seq (findLts_ok t (h _ _ _ List.mem_cons_self)) fun _ =>
      succeeds_seq (argLts_total args fun _ _ _ k => h _ _ _ (List.mem_cons_of_mem _ k))
        fun _ => succeeds_pure

theorem splitParams_eq (alts rlts : List Lt) : ∀ ps : List GParam,
    splitParams alts rlts ps =
      (ps.filterMap (fun | .ty p => some p | _ => none),
        (ps.filterMap (fun | .lt p => some p | _ => none)).filter
          (fun p => p.lt ∉ rlts ∧ p.lt ∈ alts),
        (ps.filterMap (fun | .lt p => some p | _ => none)).filter (fun p => p.lt ∈ rlts))
  | [] => rfl
  | p :: ps => by
    simp only [splitParams, splitParams_eq alts rlts ps]
    cases p with
    | ty p => simp
    | const i t => simp
    | lt p =>
      by_cases hr : p.lt ∈ rlts
      · simp [hr]
      · by_cases ha : p.lt ∈ alts <;> simp [hr, ha]

/-- C45, as far as it holds: the type parameters are kept, as declared and in order; the lifetimes of the
return type, and those of the arguments only, are as documented; the two have none in common.  Missing:
a lifetime that occurs in a place the code does not look at (`C45_dropped`); the where clause if there
is no type parameter; constant parameters; and nothing makes sure that the bounds that are kept mention
only lifetimes that are (`C45_escapes`). -/
theorem C45_split_partial (g : Generics) (args : List FnArg) (rt : Ret) (tg : Generics)
    (al rl : List LtParam) (hg : g.angle = true)
    (h : splitLifetimes g args rt = .ok (tg, al, rl)) :
    tg.params = (tyParams g).map .ty ∧
    tg.preds = (if tyParams g = [] then none else g.preds) ∧
    (∀ p ∈ al, ∀ q ∈ rl, p.lt ≠ q.lt) ∧
    rl.Sublist (ltParams g) ∧ (∀ p ∈ rl, RetHas p.lt rt) ∧
    al.Sublist (ltParams g) ∧ (∀ p ∈ al, ∃ a ∈ args, ArgHas p.lt a) ∧
    ((∀ p ∈ ltParams g, ¬ RetHidden p.lt rt ∧ ∀ a ∈ args, ¬ ArgHidden p.lt a) →
      ∀ p ∈ ltParams g,
        (p ∈ rl ↔ RetHas p.lt rt) ∧
        (p ∈ al ↔ ¬ RetHas p.lt rt ∧ ∃ a ∈ args, ArgHas p.lt a)) := by
  simp only [splitLifetimes, hg, Bool.true_eq_false, if_false, gen_bind_ok, gen_pure_ok,
    Prod.mk.injEq, splitParams_eq] at h
  obtain ⟨A, hA, R, hR, rfl, rfl, rfl⟩ := h
  refine ⟨?_, ?_, ?_, List.filter_sublist, ?_, List.filter_sublist, ?_, ?_⟩
  · show Generics.params (if tyParams g = [] then _ else _) = _
    by_cases e : tyParams g = []
    · rw [if_pos e, e]; rfl
    · rw [if_neg e]; rfl
  · show Generics.preds (if tyParams g = [] then _ else _) = _
    by_cases e : tyParams g = []
    · rw [if_pos e, if_pos e]
    · rw [if_neg e, if_neg e]
  · intro p hp q hq e
    have hp := (List.mem_filter.1 hp).2
    have hq := (List.mem_filter.1 hq).2
    simp only [decide_eq_true_eq] at hp hq
    exact hp.1 (e ▸ hq)
  · intro p hp
    have hp := List.mem_filter.1 hp
    exact (retLts_iff hR _).1 (by simpa using hp.2)
  · intro p hp
    have hp := List.mem_filter.1 hp
    have h2 : p.lt ∉ R ∧ p.lt ∈ A := by simpa using hp.2
    exact argLts_sound args A hA _ h2.2
  · intro hid p hp
    have hr : p.lt ∈ R ↔ RetHas p.lt rt :=
      ⟨(retLts_iff hR _).1, fun k => (retLts_iff hR _).2 k (hid p hp).1⟩
    have ha : p.lt ∈ A ↔ ∃ a ∈ args, ArgHas p.lt a :=
      ⟨argLts_sound args A hA _, fun k => argLts_complete args A hA _ k (hid p hp).2⟩
    constructor
    · rw [← hr]
      exact ⟨fun k => by simpa using (List.mem_filter.1 k).2,
        fun k => List.mem_filter.2 ⟨hp, by simpa using k⟩⟩
    · rw [← hr, ← ha]
      exact ⟨fun k => by simpa using (List.mem_filter.1 k).2,
        fun k => List.mem_filter.2 ⟨hp, by simpa using k⟩⟩

/-- Without `<`, everything is kept. -/
theorem C45_no_params (g : Generics) (args : List FnArg) (rt : Ret) (hg : g.angle = false) :
    splitLifetimes g args rt = .ok (g, [], []) := by
  simp only [splitLifetimes, hg, if_true]; rfl

/-- A lifetime that is in neither group occurs in no place that the code looks at. -/
theorem C45_unused_dropped (g : Generics) (args : List FnArg) (rt : Ret) (tg : Generics)
    (al rl : List LtParam) (hg : g.angle = true)
    (h : splitLifetimes g args rt = .ok (tg, al, rl)) (p : LtParam) (hr : ¬ RetHas p.lt rt)
    (ha : ∀ a ∈ args, ¬ ArgHas p.lt a) : p ∉ al ∧ p ∉ rl := by
  obtain ⟨-, -, -, -, h1, -, h2, -⟩ := C45_split_partial g args rt tg al rl hg h
  exact ⟨fun k => let ⟨a, m, n⟩ := h2 p k; ha a m n, fun k => hr (h1 p k)⟩

/-- Generation fails only for types with `fn(A) -> B`, macro calls or unparsed tokens. -/
theorem C45_total (g : Generics) (args : List FnArg) (rt : Ret)
    (ha : ∀ as p t, .typed as p t ∈ args → All LtsSupported (leaves t))
    (hr : All LtsSupported (leavesRet rt)) : Gen.succeeds (splitLifetimes g args rt) := by
  unfold splitLifetimes
  split
  · exact succeeds_pure
  · refine succeeds_seq (argLts_total args ha) fun _ => succeeds_seq ?_ fun _ => succeeds_pure
    cases rt with
    | unit => exact succeeds_pure
    | ty t => exact findLts_ok t hr

/-! ## Where it does not hold -/

/-- `Fn(&'a u32)` -/
def fnRef : Ty := .path false [.mk "Fn" (.paren [.ref (some "a") false (.name "u32")] .unit)]

/-- `<'a>` -/
def justA : Generics := { angle := true, params := [.lt ⟨"a", []⟩] }

/-- The lifetime of `x: Box<dyn Fn(&'a u32)>` or of `self: Pin<&'a mut Self>` is dropped although it is
used. -/
theorem C45_dropped :
    (∃ t, .lt "a" ∈ leaves t ∧
      splitLifetimes justA [.typed [] (.ident false false "x" false) t] .unit = .ok ({}, [], [])) ∧
    ∃ t, .lt "a" ∈ leaves t ∧
      splitLifetimes justA [.receiver none false true t] .unit = .ok ({}, [], []) :=
  ⟨⟨fnRef, by decide +kernel, by rfl⟩,
    .path false [.mk "Pin" (.angle [.ty (.ref (some "a") true (.name "Self"))])],
    by decide +kernel, by rfl⟩

/-- Constant parameters are dropped, and so is the where clause if there is no type parameter:
`<const N: usize> .. where [u8; N]: Default`. -/
theorem C45_consts_dropped :
    ∃ g, g.angle = true ∧ g.params ≠ [] ∧ g.preds ≠ none ∧
      splitLifetimes g [] .unit = .ok ({}, [], []) :=
  ⟨{ angle := true, params := [.const "N" (.name "usize")],
     preds := some [.ty none (.array (.name "u8") (.path false ["N"]))
       [.trait false [] false [.of "Default"]]] }, rfl, by simp, by simp, by rfl⟩

/-- The bound of `fn foo<'a, T: 'a>(&self, x: &'a T)` stays on `T`, while `'a` goes to the closures'
`for<'a>`: the generated `Expectation<T: 'a>` has no `'a`. -/
theorem C45_escapes :
    ∃ g args tg al, splitLifetimes g args .unit = .ok (tg, al, []) ∧
      TyBound tg "T" (.lt "a") ∧ (.lt, "a") ∉ declared tg ∧ ⟨"a", []⟩ ∈ al :=
  ⟨{ angle := true, params := [.lt ⟨"a", []⟩, .ty { id := "T", bounds := [.lt "a"] }] },
    [.typed [] (.ident false false "x" false) (.ref (some "a") false (.name "T"))],
    { angle := true, params := [.ty { id := "T", bounds := [.lt "a"] }] }, [⟨"a", []⟩],
    by rfl, ⟨_, List.mem_singleton.2 rfl, rfl, List.mem_singleton.2 rfl⟩, by decide +kernel,
    List.mem_singleton.2 rfl⟩

/-! ## Example -/

/-- `fn foo<'a, 'b, 'c, T: A>(&self, x: &'a T, y: &'b T) -> &'b T` -/
example : splitLifetimes
    { angle := true, params := [.lt ⟨"a", []⟩, .lt ⟨"b", []⟩, .lt ⟨"c", []⟩,
        .ty { id := "T", bounds := [.trait false [] false [.of "A"]] }] }
    [.receiver (some none) false false (.name "Self"),
      .typed [] (.ident false false "x" false) (.ref (some "a") false (.name "T")),
      .typed [] (.ident false false "y" false) (.ref (some "b") false (.name "T"))]
    (.ty (.ref (some "b") false (.name "T"))) =
    .ok ({ angle := true, params := [.ty { id := "T", bounds := [.trait false [] false [.of "A"]] }] },
      [⟨"a", []⟩], [⟨"b", []⟩]) := by rfl

end Mockall.Props
