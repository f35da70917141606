import Verif.Props.DeriveSubstructs

/-! # C80: the names of traits with underscores -/

namespace Mockall.Props

open Derive Spec

/-- A word in which no two underscores follow each other, and that does not end with one. -/
structure TidyWord (w : List Char) : Prop where
  single : ∀ u v, w ≠ u ++ '_' :: '_' :: v
  ends : ∀ u, w ≠ u ++ ['_']

/-- Nothing, or two underscores and more. -/
def Breaks (l : List Char) : Prop := l = [] ∨ ∃ r, l = '_' :: '_' :: r

theorem tidy_prefix {b x y t : List Char} (hb : TidyWord (b ++ t)) (hx : Breaks x) (e : x = t ++ y) : t = [] := by
  rcases hx with rfl | ⟨r, rfl⟩
  · exact (List.append_eq_nil_iff.1 e.symm).1
  · match t with
    | [] => rfl
    | [c] =>
      injection e with e _
      subst e
      exact absurd rfl (hb.ends b)
    | c :: d :: t =>
      injection e with e1 e
      injection e with e2 _
      subst e1; subst e2
      exact absurd rfl (hb.single b t)

theorem tidy_split {a b x y : List Char} (ha : TidyWord a) (hb : TidyWord b) (hx : Breaks x) (hy : Breaks y)
    (h : a ++ x = b ++ y) : a = b ∧ x = y := by
  rcases List.append_eq_append_iff.1 h with ⟨t, rfl, e⟩ | ⟨t, rfl, e⟩
  · obtain rfl := tidy_prefix hb hx e
    exact ⟨by simp, by simpa using e⟩
  · obtain rfl := tidy_prefix ha hy e
    exact ⟨by simp, by simpa using e.symm⟩

/-- Words can be read off from what they are joined to. -/
theorem tidy_join : ∀ {a b : List Char} {l m : List (List Char)}, (∀ c ∈ a :: l, TidyWord c) →
    (∀ c ∈ b :: m, TidyWord c) → List.intercalate ['_', '_'] (a :: l) = List.intercalate ['_', '_'] (b :: m) →
    a :: l = b :: m
  | a, b, [], [], _, _, h => by
    rw [List.intercalate_singleton, List.intercalate_singleton] at h
    rw [h]
  | a, b, [], c :: m, ha, hb, h => by
    rw [List.intercalate_singleton, List.intercalate_cons_cons, List.append_assoc] at h
    have := (tidy_split (x := []) (ha a (by simp)) (hb b (by simp)) (.inl rfl) (.inr ⟨_, rfl⟩) (by simpa using h)).2
    cases this
  | a, b, c :: l, [], ha, hb, h => by
    rw [List.intercalate_singleton, List.intercalate_cons_cons, List.append_assoc] at h
    have := (tidy_split (y := []) (ha a (by simp)) (hb b (by simp)) (.inr ⟨_, rfl⟩) (.inl rfl) (by simpa using h)).2
    cases this
  | a, b, c :: l, d :: m, ha, hb, h => by
    rw [List.intercalate_cons_cons, List.intercalate_cons_cons, List.append_assoc, List.append_assoc] at h
    obtain ⟨rfl, e⟩ := tidy_split (ha a (by simp)) (hb b (by simp)) (.inr ⟨_, rfl⟩) (.inr ⟨_, rfl⟩) h
    have e : List.intercalate ['_', '_'] (c :: l) = List.intercalate ['_', '_'] (d :: m) := by simpa using e
    rw [tidy_join (fun c hc => ha c (List.mem_cons_of_mem _ hc)) (fun c hc => hb c (List.mem_cons_of_mem _ hc)) e]

theorem intercalate_last (x a : List Char) : ∀ l : List (List Char),
    List.intercalate ['_', '_'] (l ++ [a]) ++ x = List.intercalate ['_', '_'] (l ++ [a ++ x])
  | [] => by simp
  | [b] => by
    simp only [List.cons_append, List.nil_append]
    rw [List.intercalate_cons_cons, List.intercalate_cons_cons]
    simp
  | b :: c :: l => by
    have ih := intercalate_last x a (c :: l)
    simp only [List.cons_append] at ih ⊢
    rw [List.intercalate_cons_cons, List.intercalate_cons_cons, List.append_assoc, ih]

/-- A word stays tidy if an underscore and a word without any is put behind it. -/
theorem tidy_suffix {a x : List Char} (ha : TidyWord a) (hx : x = [] ∨ ∃ r, x = '_' :: r ∧ '_' ∉ r ∧ r ≠ []) :
    TidyWord (a ++ x) := by
  rcases hx with rfl | ⟨r, rfl, hr, hne⟩
  · simpa using ha
  · constructor
    · intro u v e0
      rcases List.append_eq_append_iff.1 e0 with ⟨t, rfl, e⟩ | ⟨t, rfl, e⟩ <;> clear e0
      · cases t with
        | nil =>
          injection e with _ e
          exact hr (e ▸ List.mem_cons_self)
        | cons c t =>
          injection e with _ e
          exact hr (e ▸ by simp)
      · match t with
        | [] =>
          injection e with _ e
          exact hr (e ▸ List.mem_cons_self)
        | [c] =>
          injection e with e _
          subst e
          exact ha.ends u rfl
        | c :: d :: t =>
          injection e with e1 e
          injection e with e2 _
          subst e1; subst e2
          exact ha.single u t rfl
    · intro u e
      obtain ⟨r', c, rfl⟩ : ∃ r' c, r = r' ++ [c] := ⟨r.dropLast, r.getLast hne, (List.dropLast_concat_getLast hne).symm⟩
      have : (a ++ '_' :: r') ++ [c] = u ++ ['_'] := by simpa using e
      have := (List.append_inj' this rfl).2
      injection this with this _
      exact hr (by simp [this])

/-- A word and a number are read off if no underscore is in the number. -/
theorem last_split : ∀ {a b r s : List Char}, '_' ∉ r → '_' ∉ s → a ++ '_' :: r = b ++ '_' :: s → a = b ∧ r = s := by
  intro a b r s hr hs h
  rcases List.append_eq_append_iff.1 h with ⟨t, rfl, e⟩ | ⟨t, rfl, e⟩
  · cases t with
    | nil => injection e with _ e; exact ⟨by simp, e⟩
    | cons c t => injection e with _ e; exact absurd (e ▸ by simp) hr
  · cases t with
    | nil => injection e with _ e; exact ⟨by simp, e.symm⟩
    | cons c t => injection e with _ e; exact absurd (e ▸ by simp) hs

/-- The name of a module or trait: no two underscores in a row, none at its end. -/
def TidyName (n : Ident) : Prop := TidyWord n.toList

/-- The name does not end with an underscore and a number. -/
def Unnumbered (n : Ident) : Prop := ∀ a (k : Nat), n ≠ a ++ "_" ++ toString k

/-- C80: traits with paths that differ in their names or their arguments have different names, provided that the names in
the paths are tidy, those of the traits themselves are not numbered, and the arguments have different hashes.  So
`my_mod::Foo` and `other_mod::Foo` do not clash.  Without these conditions it is false (`C80_names_clash`,
`C80_paths_clash`). -/
theorem C80_paths_partial (hash : List Args → Nat) (p q : TraitPath) (hp : ∀ n ∈ pathNames p, TidyName n)
    (hq : ∀ n ∈ pathNames q, TidyName n) (np : p.segs ≠ []) (nq : q.segs ≠ [])
    (lp : ∀ n, (pathNames p).getLast? = some n → Unnumbered n) (lq : ∀ n, (pathNames q).getLast? = some n → Unnumbered n)
    (hh : writtenArgs p ≠ [] → writtenArgs q ≠ [] → hash (writtenArgs p) = hash (writtenArgs q) →
      writtenArgs p = writtenArgs q)
    (h : ssNameOf hash p = ssNameOf hash q) : pathNames p = pathNames q ∧ writtenArgs p = writtenArgs q := by
  have h := congrArg String.toList h
  rw [ssName_chars, ssName_chars] at h
  have lastOf : ∀ r : TraitPath, r.segs ≠ [] → ∃ l n, pathNames r = l ++ [n] := by
    intro r hr
    have : pathNames r ≠ [] := by simpa [pathNames] using hr
    exact ⟨_, _, (List.dropLast_concat_getLast this).symm⟩
  obtain ⟨l, a, el⟩ := lastOf p np
  obtain ⟨m, b, em⟩ := lastOf q nq
  have la := lp a (by rw [el]; simp)
  have lb := lq b (by rw [em]; simp)
  have suf : ∀ r : TraitPath, (if writtenArgs r = [] then [] else '_' :: (toString (hash (writtenArgs r))).toList) = [] ∨
      ∃ s, (if writtenArgs r = [] then [] else '_' :: (toString (hash (writtenArgs r))).toList) = '_' :: s ∧
        '_' ∉ s ∧ s ≠ [] := by
    intro r
    split
    · exact .inl rfl
    · refine .inr ⟨_, rfl, ?_, ?_⟩
      · rcases digits_suffix (hash (writtenArgs r)) with k | ⟨s, k, hs⟩
        · cases k
        · injection k with _ k
          rw [k]; exact hs
      · show (hash (writtenArgs r)).repr.toList ≠ []
        rw [Nat.toList_repr]
        exact Nat.toDigits_ne_nil
  rw [el] at hp
  rw [em] at hq
  rw [el, em, List.map_append, List.map_append, List.map_singleton, List.map_singleton, intercalate_last,
    intercalate_last] at h
  have tp : ∀ c ∈ l.map String.toList ++ [a.toList ++ (if writtenArgs p = [] then [] else
      '_' :: (toString (hash (writtenArgs p))).toList)], TidyWord c := by
    intro c hc
    rcases List.mem_append.1 hc with hc | hc
    · obtain ⟨n, hn, rfl⟩ := List.mem_map.1 hc
      exact hp n (by simp [hn])
    · rw [List.mem_singleton.1 hc]
      exact tidy_suffix (hp a (by simp)) (suf p)
  have tq : ∀ c ∈ m.map String.toList ++ [b.toList ++ (if writtenArgs q = [] then [] else
      '_' :: (toString (hash (writtenArgs q))).toList)], TidyWord c := by
    intro c hc
    rcases List.mem_append.1 hc with hc | hc
    · obtain ⟨n, hn, rfl⟩ := List.mem_map.1 hc
      exact hq n (by simp [hn])
    · rw [List.mem_singleton.1 hc]
      exact tidy_suffix (hq b (by simp)) (suf q)
  have e : l.map String.toList ++ [a.toList ++ (if writtenArgs p = [] then [] else
      '_' :: (toString (hash (writtenArgs p))).toList)] = m.map String.toList ++ [b.toList ++
      (if writtenArgs q = [] then [] else '_' :: (toString (hash (writtenArgs q))).toList)] := by
    revert h tp tq
    generalize hx : l.map String.toList ++ [_] = x
    generalize hy : m.map String.toList ++ [_] = y
    intro h tp tq
    match x, y with
    | [], _ => simp at hx
    | _, [] => simp at hy
    | _ :: _, _ :: _ => exact tidy_join tp tq h
  obtain ⟨e1, e2⟩ := List.append_inj' e rfl
  have e1 : l = m := (List.map_inj_right fun a b e => String.toList_inj.1 e).1 e1
  injection e2 with e2 _
  rw [el, em, e1]
  have num : ∀ (u v : Ident) (k : Nat), u.toList = v.toList ++ '_' :: (toString k).toList → ¬ Unnumbered u := by
    intro u v k e hu
    refine hu v k (String.toList_inj.1 ?_)
    rw [e, String.toList_append, String.toList_append, List.append_assoc]; rfl
  split at e2 <;> split at e2
  · rename_i x y
    rw [List.append_nil, List.append_nil] at e2
    exact ⟨by rw [String.toList_inj.1 e2], by rw [x, y]⟩
  · rw [List.append_nil] at e2
    exact absurd la (num _ _ _ e2)
  · rw [List.append_nil] at e2
    exact absurd lb (num _ _ _ e2.symm)
  · rename_i x y
    have ns : ∀ k : Nat, '_' ∉ (toString k).toList := by
      intro k
      rcases digits_suffix k with h | ⟨s, h, hs⟩
      · cases h
      · injection h with _ h
        rw [h]; exact hs
    obtain ⟨k1, k2⟩ := last_split (ns _) (ns _) e2
    exact ⟨by rw [String.toList_inj.1 k1], hh x y (toString_inj k2)⟩

/-- `TidyWord`, computed. -/
def tidyWord : List Char → Bool
  | [] => true
  | ['_'] => false
  | '_' :: '_' :: _ => false
  | _ :: l => tidyWord l

theorem tidyWord_of : ∀ {w : List Char}, tidyWord w = true → TidyWord w
  | [], _ => ⟨by simp, by simp⟩
  | c :: w, h => by
    have hw : tidyWord w = true ∧ (c = '_' → w ≠ [] ∧ ∀ v, w ≠ '_' :: v) := by
      unfold tidyWord at h
      split at h
      · rename_i k; cases k
      · cases h
      · cases h
      · rename_i h1 h2 e
        injection e with e1 e2
        subst e1 e2
        refine ⟨h, fun e => ⟨fun k => ?_, fun v k => ?_⟩⟩
        · subst e k; exact h1 rfl rfl
        · subst e k; exact h2 v rfl rfl
    have ih := tidyWord_of hw.1
    constructor
    · intro u v e
      cases u with
      | nil =>
        injection e with e1 e2
        exact (hw.2 e1).2 v e2
      | cons d u =>
        injection e with _ e2
        exact ih.single u v e2
    · intro u e
      cases u with
      | nil =>
        injection e with e1 e2
        exact (hw.2 e1).1 e2
      | cons d u =>
        injection e with _ e2
        exact ih.ends u e2

/-- Traits of the same name in modules with underscores: `my_mod::io::Read_all<u8>` and `other_mod::Read_all`. -/
example : ∃ p q : TraitPath, (∀ n ∈ pathNames p, TidyName n) ∧ (∀ n ∈ pathNames q, TidyName n) ∧
    (∀ n, (pathNames p).getLast? = some n → Unnumbered n) ∧ (∀ n, (pathNames q).getLast? = some n → Unnumbered n) ∧
    ∀ hash, ssNameOf hash p ≠ ssNameOf hash q := by
  have hl : Unnumbered "Read_all" := by
    intro a k e
    have e := congrArg String.toList e
    rw [String.toList_append, String.toList_append, List.append_assoc] at e
    have ns : '_' ∉ (toString k).toList := by
      rcases digits_suffix k with h | ⟨s, h, hs⟩
      · cases h
      · injection h with _ h
        rw [h]; exact hs
    have e : "Read".toList ++ '_' :: "all".toList = a.toList ++ '_' :: (toString k).toList := e
    have := (last_split (by decide +kernel) ns e).2
    have hd : ∀ c ∈ k.repr.toList, c.isDigit = true := by
      intro c hc
      rw [Nat.toList_repr] at hc
      exact Nat.isDigit_of_mem_toDigits (by decide) (by decide) hc
    have : 'a'.isDigit = true := hd 'a' (by
      show 'a' ∈ (toString k).toList
      rw [← this]; decide +kernel)
    exact absurd this (by decide)
  have hp : ∀ n ∈ pathNames ⟨false, [.of "my_mod", .of "io", .mk "Read_all" (.angle [.ty (.name "u8")])]⟩, TidyName n := by
    intro n hn
    refine tidyWord_of ?_
    revert n
    decide +kernel
  have hq : ∀ n ∈ pathNames ⟨false, [.of "other_mod", .of "Read_all"]⟩, TidyName n := by
    intro n hn
    refine tidyWord_of ?_
    revert n
    decide +kernel
  have h1 : ∀ n, (pathNames ⟨false, [.of "my_mod", .of "io", .mk "Read_all" (.angle [.ty (.name "u8")])]⟩).getLast? =
      some n → Unnumbered n := by
    intro n hn
    obtain rfl : "Read_all" = n := Option.some.inj hn
    exact hl
  have h2 : ∀ n, (pathNames ⟨false, [.of "other_mod", .of "Read_all"]⟩).getLast? = some n → Unnumbered n := by
    intro n hn
    obtain rfl : "Read_all" = n := Option.some.inj hn
    exact hl
  refine ⟨_, _, hp, hq, h1, h2, fun hash h => ?_⟩
  have := (C80_paths_partial hash _ _ hp hq (by simp) (by simp) h1 h2 (fun _ k => absurd (by decide +kernel) k) h).1
  exact absurd this (by decide +kernel)

/-- C80 is false without the conditions: `A_::B` and `A::_B` are named alike, and so are `Foo<..>` and `Foo_5` if the hash
of the arguments is 5. -/
theorem C80_paths_clash (a : Args) (ha : a ≠ .none ∧ a ≠ .angle []) :
    (∀ hash, ssNameOf hash ⟨false, [.of "A_", .of "B"]⟩ = ssNameOf hash ⟨false, [.of "A", .of "_B"]⟩) ∧
    ssNameOf (fun _ => 5) ⟨false, [.mk "Foo" a]⟩ = ssNameOf (fun _ => 5) ⟨false, [.of "Foo_5"]⟩ := by
  refine ⟨fun _ => rfl, String.toList_inj.1 ?_⟩
  rw [ssName_chars, ssName_chars]
  have : writtenArgs ⟨false, [.mk "Foo" a]⟩ = [a] := by simp [writtenArgs, Seg.args, ha.1, ha.2]
  have e1 : pathNames ⟨false, [.mk "Foo" a]⟩ = ["Foo"] := rfl
  have e2 : writtenArgs ⟨false, [.of "Foo_5"]⟩ = [] := by decide +kernel
  rw [this, e1, e2, if_neg (by simp), if_pos rfl]
  decide +kernel

end Mockall.Props
