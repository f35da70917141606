import Verif.Props.DeriveStruct

/-! # C80: the expectations of different traits have different names

The expectations for the methods of a trait are in a struct and a field that are named after the trait.  Two traits
with the same name would make the mock not compile. -/

namespace Mockall.Props

open Derive Spec

/-- Without underscores. -/
def NoUnderscore (s : String) : Prop := '_' ∉ s.toList

/-- Empty, or begins with an underscore. -/
def Ends (l : List Char) : Prop := l = [] ∨ ∃ r, l = '_' :: r

theorem split_at : ∀ {a b x y : List Char}, '_' ∉ a → '_' ∉ b → Ends x → Ends y → a ++ x = b ++ y → a = b ∧ x = y
  | [], [], _, _, _, _, _, _, h => ⟨rfl, h⟩
  | [], c :: b, x, y, _, hb, hx, _, h => by
    rcases hx with rfl | ⟨r, rfl⟩
    · cases h
    · injection h with h _
      exact absurd (h ▸ List.mem_cons_self) hb
  | c :: a, [], x, y, ha, _, _, hy, h => by
    rcases hy with rfl | ⟨r, rfl⟩
    · cases h
    · injection h with h _
      exact absurd (h ▸ List.mem_cons_self) ha
  | c :: a, d :: b, x, y, ha, hb, hx, hy, h => by
    injection h with h1 h2
    obtain ⟨e1, e2⟩ := split_at (fun k => ha (List.mem_cons_of_mem _ k)) (fun k => hb (List.mem_cons_of_mem _ k)) hx hy h2
    exact ⟨by rw [h1, e1], e2⟩

/-- An underscore and a word without one, or nothing. -/
def Suffix (l : List Char) : Prop := l = [] ∨ ∃ r, l = '_' :: r ∧ '_' ∉ r

theorem Suffix.ends {l : List Char} (h : Suffix l) : Ends l := by
  rcases h with h | ⟨r, h, -⟩
  · exact .inl h
  · exact .inr ⟨r, h⟩

theorem join_inj : ∀ {a b : List Char} {l m : List (List Char)} {x y : List Char}, (∀ c ∈ a :: l, '_' ∉ c) →
    (∀ c ∈ b :: m, '_' ∉ c) → Suffix x → Suffix y →
    List.intercalate ['_', '_'] (a :: l) ++ x = List.intercalate ['_', '_'] (b :: m) ++ y → a :: l = b :: m ∧ x = y
  | a, b, [], [], x, y, ha, hb, hx, hy, h => by
    rw [List.intercalate_singleton, List.intercalate_singleton] at h
    obtain ⟨rfl, e⟩ := split_at (ha a (by simp)) (hb b (by simp)) hx.ends hy.ends h
    exact ⟨rfl, e⟩
  | a, b, [], c :: m, x, y, ha, hb, hx, hy, h => by
    rw [List.intercalate_singleton, List.intercalate_cons_cons, List.append_assoc, List.append_assoc] at h
    obtain ⟨-, rfl⟩ := split_at (ha a (by simp)) (hb b (by simp)) hx.ends (.inr ⟨_, rfl⟩) h
    rcases hx with hx | ⟨r, hx, hr⟩
    · cases hx
    · injection hx with _ hx
      exact absurd (hx ▸ List.mem_cons_self) hr
  | a, b, c :: l, [], x, y, ha, hb, hx, hy, h => by
    rw [List.intercalate_singleton, List.intercalate_cons_cons, List.append_assoc, List.append_assoc] at h
    obtain ⟨-, rfl⟩ := split_at (ha a (by simp)) (hb b (by simp)) (.inr ⟨_, rfl⟩) hy.ends h
    rcases hy with hy | ⟨r, hy, hr⟩
    · cases hy
    · injection hy with _ hy
      exact absurd (hy ▸ List.mem_cons_self) hr
  | a, b, c :: l, d :: m, x, y, ha, hb, hx, hy, h => by
    rw [List.intercalate_cons_cons, List.intercalate_cons_cons, List.append_assoc, List.append_assoc,
      List.append_assoc, List.append_assoc] at h
    obtain ⟨rfl, e⟩ := split_at (ha a (by simp)) (hb b (by simp)) (.inr ⟨_, rfl⟩) (.inr ⟨_, rfl⟩) h
    have e : List.intercalate ['_', '_'] (c :: l) ++ x = List.intercalate ['_', '_'] (d :: m) ++ y := by
      simpa using e
    obtain ⟨e1, e2⟩ := join_inj (fun c hc => ha c (List.mem_cons_of_mem _ hc))
      (fun c hc => hb c (List.mem_cons_of_mem _ hc)) hx hy e
    exact ⟨by rw [e1], e2⟩

theorem digits_suffix (n : Nat) : Suffix ('_' :: (toString n).toList) := by
  refine .inr ⟨_, rfl, ?_⟩
  show '_' ∉ n.repr.toList
  rw [Nat.toList_repr]
  exact Nat.underscore_not_in_toDigits

theorem toString_inj {n k : Nat} (h : (toString n).toList = (toString k).toList) : n = k := by
  have h : n.repr.toList = k.repr.toList := h
  rw [Nat.toList_repr, Nat.toList_repr] at h
  rw [← Nat.ofDigitChars_ten_toDigits (n := n), h, Nat.ofDigitChars_ten_toDigits]

/-- The names in a path. -/
def pathNames (p : TraitPath) : List Ident := p.segs.map Seg.id

/-- The arguments in a path, but for those that are empty. -/
def writtenArgs (p : TraitPath) : List Args := (p.segs.map Seg.args).filter fun a => a ≠ .none ∧ a ≠ .angle []

theorem pathArgs_eq (p : TraitPath) : pathArgs p = writtenArgs p := by
  rw [pathArgs, writtenArgs]
  congr 1
  funext a
  cases a with
  | none => simp [Args.isEmpty]
  | angle l => cases l <;> simp [Args.isEmpty]
  | paren x y => simp [Args.isEmpty]

/-- The name as characters. -/
theorem ssName_chars (hash : List Args → Nat) (p : TraitPath) : (ssNameOf hash p).toList =
    List.intercalate ['_', '_'] ((pathNames p).map String.toList) ++
      if writtenArgs p = [] then [] else '_' :: (toString (hash (writtenArgs p))).toList := by
  rw [ssNameOf, pathArgs_eq]
  split
  · rw [joinSegs, String.toList_intercalate, List.append_nil]; rfl
  · rw [String.toList_append, String.toList_append, joinSegs, String.toList_intercalate, List.append_assoc]; rfl

/-- C80: traits with paths that differ in their names or their arguments have different names, provided that no name
has an underscore in it and the arguments have different hashes.  Without this it is false (`C80_names_clash`). -/
theorem C80_names_partial (hash : List Args → Nat) (p q : TraitPath) (hp : ∀ n ∈ pathNames p, NoUnderscore n)
    (hq : ∀ n ∈ pathNames q, NoUnderscore n) (np : p.segs ≠ []) (nq : q.segs ≠ [])
    (hh : writtenArgs p ≠ [] → writtenArgs q ≠ [] → hash (writtenArgs p) = hash (writtenArgs q) →
      writtenArgs p = writtenArgs q)
    (h : ssNameOf hash p = ssNameOf hash q) : pathNames p = pathNames q ∧ writtenArgs p = writtenArgs q := by
  have h := congrArg String.toList h
  rw [ssName_chars, ssName_chars] at h
  have suf : ∀ r : TraitPath,
      Suffix (if writtenArgs r = [] then [] else '_' :: (toString (hash (writtenArgs r))).toList) := by
    intro r
    split
    · exact .inl rfl
    · exact digits_suffix _
  have key : (pathNames p).map String.toList = (pathNames q).map String.toList ∧
      (if writtenArgs p = [] then [] else '_' :: (toString (hash (writtenArgs p))).toList) =
      (if writtenArgs q = [] then [] else '_' :: (toString (hash (writtenArgs q))).toList) := by
    have fp : ∀ c ∈ (pathNames p).map String.toList, '_' ∉ c := by
      intro c hc
      obtain ⟨n, hn, rfl⟩ := List.mem_map.1 hc
      exact hp n hn
    have fq : ∀ c ∈ (pathNames q).map String.toList, '_' ∉ c := by
      intro c hc
      obtain ⟨n, hn, rfl⟩ := List.mem_map.1 hc
      exact hq n hn
    have ep : (pathNames p).map String.toList ≠ [] := by simpa [pathNames] using np
    have eq : (pathNames q).map String.toList ≠ [] := by simpa [pathNames] using nq
    revert h fp fq ep eq
    generalize (pathNames p).map String.toList = l
    generalize (pathNames q).map String.toList = m
    intro h fp fq ep eq
    match l, m, ep, eq with
    | a :: l, b :: m, _, _ => exact join_inj fp fq (suf p) (suf q) h
  refine ⟨?_, ?_⟩
  · have := key.1
    exact (List.map_inj_right fun a b e => String.toList_inj.1 e).1 this
  · have := key.2
    split at this <;> split at this
    · rename_i a b; rw [a, b]
    · cases this
    · cases this
    · rename_i a b
      injection this with _ this
      exact hh a b (toString_inj this)

/-- C80 for traits that are written without a path: different traits or different arguments, different names. -/
theorem C80_plain_names_partial (hash : List Args → Nat) (s t : Seg) (hs : NoUnderscore s.id) (ht : NoUnderscore t.id)
    (hh : hash [s.args] = hash [t.args] → s.args = t.args) (he : s.args ≠ .angle []) (he' : t.args ≠ .angle [])
    (h : ssNameOf hash ⟨false, [s]⟩ = ssNameOf hash ⟨false, [t]⟩) : s = t := by
  have wa : ∀ r : Seg, r.args ≠ .angle [] → writtenArgs ⟨false, [r]⟩ = if r.args = .none then [] else [r.args] := by
    intro r hr
    by_cases h : r.args = .none <;> simp [writtenArgs, h, hr]
  obtain ⟨h1, h2⟩ := C80_names_partial hash ⟨false, [s]⟩ ⟨false, [t]⟩ (by simpa [pathNames] using hs)
    (by simpa [pathNames] using ht) (by simp) (by simp) (by
      rw [wa s he, wa t he']
      split <;> split <;> simp_all) h
  cases s with
  | mk i a =>
  cases t with
  | mk j b =>
  simp only [pathNames, List.map_cons, List.map_nil, Seg.id, List.cons.injEq, and_true] at h1
  subst h1
  rw [wa _ he, wa _ he'] at h2
  simp only [Seg.args] at h2
  by_cases ha : a = .none <;> by_cases hb : b = .none <;> simp_all

/-- Such names, of `A::Foo<u8>` and `A::Foo`. -/
example : ∃ p q : TraitPath, p ≠ q ∧ (∀ n ∈ pathNames p, NoUnderscore n) ∧ (∀ n ∈ pathNames q, NoUnderscore n) ∧
    p.segs ≠ [] ∧ q.segs ≠ [] ∧ writtenArgs p ≠ writtenArgs q ∧ ∀ hash, ssNameOf hash p ≠ ssNameOf hash q := by
  have hn : ∀ n ∈ ["A", "Foo"], NoUnderscore n := by
    intro n hn
    simp only [List.mem_cons, List.not_mem_nil, or_false] at hn
    rcases hn with rfl | rfl <;> simp [NoUnderscore]
  have hw : writtenArgs ⟨false, [.of "A", .mk "Foo" (.angle [.ty (.name "u8")])]⟩ ≠
    writtenArgs ⟨false, [.of "A", .of "Foo"]⟩ := by decide +kernel
  refine ⟨⟨false, [.of "A", .mk "Foo" (.angle [.ty (.name "u8")])]⟩, ⟨false, [.of "A", .of "Foo"]⟩, by decide +kernel,
    hn, hn, by simp, by simp, hw, fun hash h => hw ?_⟩
  exact (C80_names_partial hash ⟨false, [.of "A", .mk "Foo" (.angle [.ty (.name "u8")])]⟩ ⟨false, [.of "A", .of "Foo"]⟩ hn hn (by simp) (by simp) (fun _ k => absurd (by decide +kernel) k) h).2

/-- C80 is false otherwise: `A::B` and `A__B` are named alike, and so are `A<T>::B` and `A::B<T>`. -/
theorem C80_names_clash (hash : List Args → Nat) (t : Ty) :
    ssNameOf hash ⟨false, [.of "A", .of "B"]⟩ = ssNameOf hash ⟨false, [.of "A__B"]⟩ ∧
    ssNameOf hash ⟨false, [.mk "A" (.angle [.ty t]), .of "B"]⟩ =
      ssNameOf hash ⟨false, [.of "A", .mk "B" (.angle [.ty t])]⟩ := by
  refine ⟨rfl, rfl⟩

end Mockall.Props
