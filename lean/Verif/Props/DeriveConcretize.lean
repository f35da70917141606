import Verif.Spec.Concretize
import Verif.Props.DeriveBuild

/-! # C61: `#[concretize]` -/

namespace Mockall.Props

open Derive Spec

/-! ## The map of types -/

/-- What the map holds, given the bounds of the parameters. -/
def concOf (B : Ident → Option (List Bound)) : Ty → Option Concrete
  | .path false [.mk n .none] =>
    (B n).map fun b => ⟨.ref none (firstIsFnMut b) (dynTy b), none, firstIsFnMut b⟩
  | .ref none false (.path false [.mk n .none]) =>
    (B n).map fun b => ⟨.ref none (firstIsFnMut b) (dynTy b), none, firstIsFnMut b⟩
  | .ref none true (.path false [.mk n .none]) =>
    (B n).map fun b => ⟨.ref none true (dynTy b), none, firstIsFnMut b⟩
  | .ref none false (.slice (.path false [.mk n .none])) =>
    (B n).map fun b => ⟨.ref none false (.slice (.ref none false (dynTy b))), some b, firstIsFnMut b⟩
  | _ => none

theorem concOf_name (B : Ident → Option (List Bound)) (n : Ident) : concOf B (.name n) =
    (B n).map fun b => ⟨.ref none (firstIsFnMut b) (dynTy b), none, firstIsFnMut b⟩ := rfl
theorem concOf_shared (B : Ident → Option (List Bound)) (n : Ident) : concOf B (.ref none false (.name n)) =
    (B n).map fun b => ⟨.ref none (firstIsFnMut b) (dynTy b), none, firstIsFnMut b⟩ := rfl
theorem concOf_exclusive (B : Ident → Option (List Bound)) (n : Ident) : concOf B (.ref none true (.name n)) =
    (B n).map fun b => ⟨.ref none true (dynTy b), none, firstIsFnMut b⟩ := rfl
theorem concOf_slice (B : Ident → Option (List Bound)) (n : Ident) : concOf B (.ref none false (.slice (.name n))) =
    (B n).map fun b => ⟨.ref none false (.slice (.ref none false (dynTy b))), some b, firstIsFnMut b⟩ := rfl

/-- `B` with the bounds of `i` replaced. -/
def setB (B : Ident → Option (List Bound)) (i : Ident) (b : List Bound) : Ident → Option (List Bound) :=
  fun n => if n = i then some b else B n

theorem saveTypes_ok {i : Ident} {b : List Bound} {hm hm' : ConcreteMap} {B : Ident → Option (List Bound)}
    (h : saveTypes i b hm = .ok hm') (hB : ∀ t, hm.lookup t = concOf B t) :
    ∀ t, hm'.lookup t = concOf (if b = [] then B else setB B i b) t := by
  unfold saveTypes at h
  split at h
  · rename_i hb
    simp only [gen_pure_ok] at h
    subst h
    simpa [hb] using hB
  · rename_i hb
    simp only [parenDyn, gen_bind_ok, gen_pure_ok] at h
    obtain ⟨d, hd, rfl⟩ := h
    split at hd
    · simp only [gen_pure_ok] at hd
      subst hd
      intro t
      simp only [hb, if_false, List.lookup_cons]
      have hs : ∀ n, n ≠ i → setB B i b n = B n := fun n hn => by simp [setB, hn]
      have hi : setB B i b i = some b := by simp [setB]
      by_cases h1 : t = .ref none false (.slice (.name i))
      · subst h1
        simp only [beq_self_eq_true]
        rw [concOf_slice, hi]; rfl
      have e1 : (t == .ref none false (.slice (.name i))) = false := by simpa using h1
      by_cases h2 : t = .ref none true (.name i)
      · subst h2
        simp only [e1, beq_self_eq_true]
        rw [concOf_exclusive, hi]; rfl
      have e2 : (t == .ref none true (.name i)) = false := by simpa using h2
      by_cases h3 : t = .ref none false (.name i)
      · subst h3
        simp only [e1, e2, beq_self_eq_true]
        rw [concOf_shared, hi]; rfl
      have e3 : (t == .ref none false (.name i)) = false := by simpa using h3
      by_cases h4 : t = .name i
      · subst h4
        simp only [e1, e2, e3, beq_self_eq_true]
        rw [concOf_name, hi]; rfl
      have e4 : (t == .name i) = false := by simpa using h4
      simp only [e1, e2, e3, e4, hB]
      unfold concOf
      split
      · rename_i n; rw [hs n (by rintro rfl; exact h4 rfl)]
      · rename_i n; rw [hs n (by rintro rfl; exact h3 rfl)]
      · rename_i n; rw [hs n (by rintro rfl; exact h2 rfl)]
      · rename_i n; rw [hs n (by rintro rfl; exact h1 rfl)]
      · rfl
    · simp at hd

/-- `B` gives, of the lists of bounds in `S`, one that is not empty, if there is one. -/
def Gives (B : Ident → Option (List Bound)) (S : Ident → List Bound → Prop) : Prop :=
  (∀ n bs, B n = some bs → S n bs ∧ bs ≠ []) ∧ ∀ n, B n = none → ∀ bs, S n bs → bs = []

theorem Gives.add {B : Ident → Option (List Bound)} {S : Ident → List Bound → Prop} (h : Gives B S) (i : Ident)
    (b : List Bound) :
    Gives (if b = [] then B else setB B i b) fun n bs => S n bs ∨ (n = i ∧ bs = b) := by
  split
  · rename_i hb
    subst hb
    refine ⟨fun n bs hn => ⟨.inl (h.1 n bs hn).1, (h.1 n bs hn).2⟩, fun n hn bs hs => ?_⟩
    rcases hs with hs | ⟨-, rfl⟩
    · exact h.2 n hn bs hs
    · rfl
  · rename_i hb
    refine ⟨fun n bs hn => ?_, fun n hn bs hs => ?_⟩
    · simp only [setB] at hn
      split at hn
      · rename_i hi
        cases hn
        exact ⟨.inr ⟨hi, rfl⟩, hb⟩
      · exact ⟨.inl (h.1 n bs hn).1, (h.1 n bs hn).2⟩
    · simp only [setB] at hn
      split at hn
      · cases hn
      · rename_i hi
        rcases hs with hs | ⟨rfl, -⟩
        · exact h.2 n hn bs hs
        · exact absurd rfl hi

theorem Gives.congr {B : Ident → Option (List Bound)} {S T : Ident → List Bound → Prop} (h : Gives B S)
    (e : ∀ n bs, S n bs ↔ T n bs) : Gives B T :=
  ⟨fun n bs hn => ⟨(e n bs).1 (h.1 n bs hn).1, (h.1 n bs hn).2⟩, fun n hn bs hs => h.2 n hn bs ((e n bs).2 hs)⟩

theorem saveTypesParams_ok : ∀ {l : List GParam} {hm hm' : ConcreteMap} {B : Ident → Option (List Bound)}
    {S : Ident → List Bound → Prop}, saveTypesParams l hm = .ok hm' → (∀ t, hm.lookup t = concOf B t) → Gives B S →
    ∃ B', (∀ t, hm'.lookup t = concOf B' t) ∧
      Gives B' fun n bs => S n bs ∨ ∃ p, .ty p ∈ l ∧ p.id = n ∧ p.bounds = bs
  | [], hm, hm', B, S, h, hB, hS => by
    simp only [saveTypesParams, gen_pure_ok] at h
    subst h
    exact ⟨B, hB, hS.congr (by simp)⟩
  | .ty p :: l, hm, hm', B, S, h, hB, hS => by
    simp only [saveTypesParams, gen_bind_ok] at h
    obtain ⟨hm1, h1, h⟩ := h
    obtain ⟨B', k1, k2⟩ := saveTypesParams_ok h (saveTypes_ok h1 hB) (hS.add p.id p.bounds)
    refine ⟨B', k1, k2.congr fun n bs => ?_⟩
    simp only [List.mem_cons, GParam.ty.injEq, or_assoc]
    refine or_congr_right ?_
    constructor
    · rintro (⟨rfl, rfl⟩ | ⟨q, h, r⟩)
      · exact ⟨p, .inl rfl, rfl, rfl⟩
      · exact ⟨q, .inr h, r⟩
    · rintro ⟨q, rfl | h, r⟩
      · exact .inl ⟨r.1.symm, r.2.symm⟩
      · exact .inr ⟨q, h, r⟩
  | .lt p :: l, hm, hm', B, S, h, hB, hS => by
    obtain ⟨B', k1, k2⟩ := saveTypesParams_ok (l := l) h hB hS
    exact ⟨B', k1, k2.congr (by simp)⟩
  | .const i t :: l, hm, hm', B, S, h, hB, hS => by
    obtain ⟨B', k1, k2⟩ := saveTypesParams_ok (l := l) h hB hS
    exact ⟨B', k1, k2.congr (by simp)⟩

theorem saveTypesPreds_ok : ∀ {l : List WPred} {hm hm' : ConcreteMap} {B : Ident → Option (List Bound)}
    {S : Ident → List Bound → Prop}, saveTypesPreds l hm = .ok hm' → (∀ t, hm.lookup t = concOf B t) → Gives B S →
    ∃ B', (∀ t, hm'.lookup t = concOf B' t) ∧
      Gives B' fun n bs => S n bs ∨ ∃ ls t, .ty ls t bs ∈ l ∧ IsName n t
  | [], hm, hm', B, S, h, hB, hS => by
    simp only [saveTypesPreds, gen_pure_ok] at h
    subst h
    exact ⟨B, hB, hS.congr (by simp)⟩
  | .lt p q :: l, hm, hm', B, S, h, hB, hS => by
    obtain ⟨B', k1, k2⟩ := saveTypesPreds_ok (l := l) h hB hS
    exact ⟨B', k1, k2.congr (by simp)⟩
  | .ty ls t b :: l, hm, hm', B, S, h, hB, hS => by
    rw [saveTypesPreds] at h
    split at h
    · rename_i i hi
      simp only [gen_bind_ok] at h
      obtain ⟨hm1, h1, h⟩ := h
      obtain ⟨B', k1, k2⟩ := saveTypesPreds_ok h (saveTypes_ok h1 hB) (hS.add i b)
      refine ⟨B', k1, k2.congr fun n bs => ?_⟩
      simp only [List.mem_cons, WPred.ty.injEq, or_assoc]
      refine or_congr_right ?_
      constructor
      · rintro (⟨rfl, rfl⟩ | ⟨ls', t', h, r⟩)
        · exact ⟨ls, t, .inl ⟨rfl, rfl, rfl⟩, (asIdent_iff _ _).1 hi⟩
        · exact ⟨ls', t', .inr h, r⟩
      · rintro ⟨ls', t', ⟨rfl, rfl, rfl⟩ | h, r⟩
        · have := (asIdent_iff _ _).2 r
          rw [hi] at this
          exact .inl ⟨(Option.some.inj this).symm, rfl⟩
        · exact .inr ⟨ls', t', h, r⟩
    · rename_i hi
      obtain ⟨B', k1, k2⟩ := saveTypesPreds_ok h hB hS
      refine ⟨B', k1, k2.congr fun n bs => ?_⟩
      simp only [List.mem_cons, WPred.ty.injEq]
      refine or_congr_right ?_
      constructor
      · rintro ⟨ls', t', h, r⟩; exact ⟨ls', t', .inr h, r⟩
      · rintro ⟨ls', t', ⟨rfl, rfl, rfl⟩ | h, r⟩
        · have := (asIdent_iff _ _).2 r
          rw [hi] at this; cases this
        · exact ⟨ls', t', h, r⟩

theorem concrete_map {g : Generics} {m hm : ConcreteMap} (hp : saveTypesParams g.params [] = .ok m)
    (hw : saveTypesPreds (g.preds.getD []) m = .ok hm) :
    ∃ B, (∀ t, hm.lookup t = concOf B t) ∧ Gives B (BoundsOf g) := by
  have h0 : ∀ t, ([] : ConcreteMap).lookup t = concOf (fun _ => none) t := by
    intro t
    unfold concOf
    split <;> rfl
  obtain ⟨B1, k1, s1⟩ := saveTypesParams_ok hp h0 (S := fun _ _ => False) ⟨by simp, by simp⟩
  obtain ⟨B2, k2, s2⟩ := saveTypesPreds_ok hw k1 s1
  refine ⟨B2, k2, s2.congr fun n bs => ?_⟩
  constructor
  · rintro ((h | ⟨p, h, rfl, rfl⟩) | ⟨ls, t, h, hn⟩)
    · exact h.elim
    · exact .param p h rfl
    · exact .pred ls t bs h hn
  · rintro (⟨p, h, rfl⟩ | ⟨ls, t, bs, h, hn⟩)
    · exact .inl (.inr ⟨p, h, rfl, rfl⟩)
    · exact .inr ⟨ls, t, h, hn⟩

/-! ## `FnMut` -/

theorem firstIsFnMut_iff {bs : List Bound} (h : FnMutPlain bs) :
    firstIsFnMut bs = true ↔ ∃ b ∈ bs, FnMutBound b := by
  constructor
  · intro k
    match bs, k with
    | .trait m l c (s :: r) :: t, k =>
      simp only [firstIsFnMut, decide_eq_true_eq] at k
      refine ⟨_, List.mem_cons_self, [], s.args, ?_⟩
      have := (h (.trait m l c (s :: r)) List.mem_cons_self s (by simp [boundSegs]) k).1
      rw [this]
      cases s; simp only [Seg.id] at k; subst k; rfl
  · rintro ⟨b, hb, init, args, he⟩
    obtain ⟨h1, h2⟩ := h b hb (.mk "FnMut" args) (by simp [he]) rfl
    match b, bs, h1, h2 with
    | .trait m l c segs, _ :: t, h1, h2 =>
      simp only [List.head?_cons, Option.some.injEq] at h2
      subst h2
      simp only [boundSegs] at h1
      subst h1
      rfl

/-! ## Arguments -/

section
variable {g : Generics} {B : Ident → Option (List Bound)} {hm : ConcreteMap}

theorem concOf_some {t : Ty} {c : Concrete} (h : concOf B t = some c) :
    ∃ n bs, B n = some bs ∧ (t = .name n ∨ (∃ m, t = .ref none m (.name n)) ∨
      t = .ref none false (.slice (.name n))) := by
  unfold concOf at h
  split at h
  · rename_i n
    obtain ⟨bs, hb, -⟩ := Option.map_eq_some_iff.1 h
    exact ⟨n, bs, hb, .inl rfl⟩
  · rename_i n
    obtain ⟨bs, hb, -⟩ := Option.map_eq_some_iff.1 h
    exact ⟨n, bs, hb, .inr (.inl ⟨_, rfl⟩)⟩
  · rename_i n
    obtain ⟨bs, hb, -⟩ := Option.map_eq_some_iff.1 h
    exact ⟨n, bs, hb, .inr (.inl ⟨_, rfl⟩)⟩
  · rename_i n
    obtain ⟨bs, hb, -⟩ := Option.map_eq_some_iff.1 h
    exact ⟨n, bs, hb, .inr (.inr rfl)⟩
  · cases h

theorem concOf_none {t : Ty} (h : concOf B t = none) (n : Ident) (bs : List Bound) (hb : B n = some bs) :
    t ≠ .name n ∧ (∀ m, t ≠ .ref none m (.name n)) ∧ t ≠ .ref none false (.slice (.name n)) := by
  refine ⟨?_, ?_, ?_⟩
  · rintro rfl; rw [concOf_name, hb] at h; cases h
  · rintro (_ | _) rfl
    · rw [concOf_shared, hb] at h; cases h
    · rw [concOf_exclusive, hb] at h; cases h
  · rintro rfl; rw [concOf_slice, hb] at h; cases h

variable (H : ∀ t, hm.lookup t = concOf B t) (G : Gives B (BoundsOf g))
  (hf : ∀ n bs, BoundsOf g n bs → FnMutPlain bs) (hq : ∀ n bs, BoundsOf g n bs → ∀ b ∈ bs, NotMaybe b)
include H G hf

/-- One argument, after `concretizeArg`. -/
theorem concretizes {t : Ty} (hr : ∀ n, t = .ref none false (.name n) → ∀ b, Has g n b → ¬ FnMutBound b) :
    Concretizes B t (((hm.lookup t).map Concrete.ty).getD t) := by
  rw [H]
  cases hc : concOf B t with
  | none => exact .other t (concOf_none hc)
  | some c =>
    obtain ⟨n, bs, hb, rfl | ⟨m, rfl⟩ | rfl⟩ := concOf_some hc
    · rw [concOf_name, hb] at hc
      cases hc
      simp only [Option.map_some, Option.getD_some]
      have hi := firstIsFnMut_iff (hf n bs (G.1 n bs hb).1)
      cases hm : firstIsFnMut bs with
      | true => exact .fnMut n bs hb (hi.1 hm)
      | false => exact .value n bs hb fun b h1 h2 => by simp [hi.2 ⟨b, h1, h2⟩] at hm
    · cases m with
      | false =>
        rw [concOf_shared, hb] at hc
        cases hc
        simp only [Option.map_some, Option.getD_some]
        have hi := firstIsFnMut_iff (hf n bs (G.1 n bs hb).1)
        have : firstIsFnMut bs = false := by
          cases hm : firstIsFnMut bs with
          | false => rfl
          | true =>
            obtain ⟨b, h1, h2⟩ := hi.1 hm
            exact absurd h2 (hr n rfl b ⟨bs, (G.1 n bs hb).1, h1⟩)
        rw [this]
        exact .shared n bs hb
      | true =>
        rw [concOf_exclusive, hb] at hc
        cases hc
        exact .exclusive n bs hb
    · rw [concOf_slice, hb] at hc
      cases hc
      exact .slice n bs hb

include hq

/-- The expression passed for it fits. -/
theorem concretize_fits {as : List String} {p p' : Pat} {t : Ty} {e : CallArg}
    (hr : ∀ n, t = .ref none false (.name n) → ∀ b, Has g n b → ¬ FnMutBound b)
    (hp : demutifyPat p = .ok p') (h : concretizeCall hm (.typed as p t) = .ok (some e)) :
    callVar e = p' ∧ Fits g (callTy e t) (((hm.lookup t).map Concrete.ty).getD t) := by
  simp only [concretizeCall, gen_bind_ok] at h
  obtain ⟨p1, h1, h⟩ := h
  rw [hp] at h1
  cases h1
  split at h
  · simp at h
  · have hu : ∀ n bs, B n = some bs → ∀ b ∈ bs, Has g n b ∧ NotMaybe b := fun n bs hb b hm =>
      ⟨⟨bs, (G.1 n bs hb).1, hm⟩, hq n bs (G.1 n bs hb).1 b hm⟩
    rw [H] at h ⊢
    cases hc : concOf B t with
    | none =>
      simp only [hc, gen_pure_ok, Option.some.injEq] at h
      subst h
      exact ⟨rfl, .same _⟩
    | some c =>
      rw [hc] at h
      obtain ⟨n, bs, hb, rfl | ⟨m, rfl⟩ | rfl⟩ := concOf_some hc
      · rw [concOf_name, hb] at hc
        cases hc
        simp only [Ty.name, gen_pure_ok, Option.some.injEq] at h
        subst h
        exact ⟨rfl, .unsize _ _ n bs (hu n bs hb)⟩
      · cases m with
        | false =>
          have hi := firstIsFnMut_iff (hf n bs (G.1 n bs hb).1)
          have hz : firstIsFnMut bs = false := by
            cases hm : firstIsFnMut bs with
            | false => rfl
            | true =>
              obtain ⟨b, h1, h2⟩ := hi.1 hm
              exact absurd h2 (hr n rfl b ⟨bs, (G.1 n bs hb).1, h1⟩)
          rw [concOf_shared, hb] at hc
          cases hc
          simp only [Ty.name, gen_pure_ok, Option.some.injEq] at h
          subst h
          refine ⟨rfl, ?_⟩
          simp only [Option.map_some, Option.getD_some, hz]
          exact .unsize _ _ n bs (hu n bs hb)
        | true =>
          rw [concOf_exclusive, hb] at hc
          cases hc
          simp only [Ty.name, gen_pure_ok, Option.some.injEq] at h
          subst h
          exact ⟨rfl, .unsize _ _ n bs (hu n bs hb)⟩
      · rw [concOf_slice, hb] at hc
        cases hc
        simp only [gen_pure_ok, Option.some.injEq, Option.getD_some] at h
        subst h
        exact ⟨rfl, .vec _⟩

theorem concretize_args {n : Nat} : ∀ {l m : List FnArg} {cs : List (Option CallArg)} {as : List BArg} {st : Bool},
    (∀ at_ p n, .typed at_ p (.ref none false (.name n)) ∈ l → ∀ b, Has g n b → ¬ FnMutBound b) →
    l.mapM (concretizeArg hm) = .ok m → l.mapM (concretizeCall hm) = .ok cs → buildArgs n m = .ok (as, st) →
    ∃ vals, Minus (fun a => ¬ IsValueArg a) l vals ∧ as.length = (cs.filterMap id).length ∧
      Pointwise (ArgConcrete g B n) vals (as.zip (cs.filterMap id))
  | [], m, cs, as, st, _, h1, h2, h3 => by
    simp only [List.mapM_nil, gen_pure_ok] at h1 h2
    subst h1 h2
    simp only [buildArgs, gen_pure_ok, Prod.mk.injEq] at h3
    rw [← h3.1]
    exact ⟨[], .nil, rfl, .nil⟩
  | a :: l, m, cs, as, st, hr, h1, h2, h3 => by
    simp only [List.mapM_cons, gen_bind_ok, gen_pure_ok] at h1 h2
    obtain ⟨a', ha, m', hm', rfl⟩ := h1
    obtain ⟨c, hc, cs', hcs, rfl⟩ := h2
    have hr' := fun at_ p n h => hr at_ p n (List.mem_cons_of_mem _ h)
    cases a with
    | receiver r m c' t =>
      simp only [concretizeArg, gen_pure_ok] at ha
      simp only [concretizeCall, gen_pure_ok] at hc
      subst ha hc
      simp only [buildArgs, gen_bind_ok, gen_pure_ok, Prod.mk.injEq] at h3
      obtain ⟨⟨as', st'⟩, h3, rfl, -⟩ := h3
      obtain ⟨vals, k1, k2, k3⟩ := concretize_args hr' hm' hcs h3
      exact ⟨vals, .skip (by simp [IsValueArg]) k1, k2, k3⟩
    | typed at_ p t =>
      have hr1 : ∀ n, t = .ref none false (.name n) → ∀ b, Has g n b → ¬ FnMutBound b := by
        rintro n rfl
        exact hr at_ p n List.mem_cons_self
      simp only [concretizeArg, gen_bind_ok] at ha
      obtain ⟨p', hp, ha⟩ := ha
      have ha : a' = .typed [] p' (((hm.lookup t).map Concrete.ty).getD t) := by
        split at ha
        · rename_i e; simp only [gen_pure_ok] at ha; rw [← ha, e]; rfl
        · rename_i e; simp only [gen_pure_ok] at ha; rw [← ha, e]; rfl
      subst ha
      simp only [buildArgs, gen_bind_ok, gen_pure_ok, Prod.mk.injEq] at h3
      obtain ⟨d, hd, ⟨as', st'⟩, h3, rfl, -⟩ := h3
      obtain ⟨hn, ht, hself, hrp, hco, hpt⟩ := buildArg_fits hd
      obtain ⟨vals, k1, k2, k3⟩ := concretize_args hr' hm' hcs h3
      have : ∃ e, c = some e := by
        have hc := hc
        simp only [concretizeCall, gen_bind_ok, hp] at hc
        obtain ⟨p1, h1, hc⟩ := hc
        cases h1
        rw [hself] at hc
        simp only [Bool.false_eq_true, if_false] at hc
        repeat' split at hc
        all_goals
          simp only [gen_pure_ok] at hc
          exact ⟨_, hc.symm⟩
      obtain ⟨e, rfl⟩ := this
      obtain ⟨hv, hfit⟩ := concretize_fits H G hf hq hr1 hp hc
      refine ⟨_, .keep ?_ k1, by simp [k2], ?_⟩
      · rw [Classical.not_not]
        exact value_arg (demutifyPat_ok hp) hself
      · refine .cons (.mk at_ p t _ d e (hn ▸ demutifyPat_ok hp) (hv.trans hn.symm) (concretizes H G hf hr1) hfit ?_
          hrp hco hpt) k3
        rintro P gens rfl hgood
        exact C41_relative_paths_partial P gens _ d.ty hgood ht

omit hq in
theorem concretize_sig {a a' : FnArg} (h : concretizeSigArg hm a = .ok a') : SigArg B a a' := by
  cases a with
  | receiver =>
    simp only [concretizeSigArg, gen_pure_ok] at h
    subst h
    exact .same _ (by rintro _ _ _ _ ⟨⟩)
  | typed as p t =>
    rw [concretizeSigArg.eq_def] at h
    simp only [H] at h
    split at h
    · rename_i hn
      split at h
      · rename_i r m i s
        simp only [gen_pure_ok] at h
        subst h
        cases hc : concOf B t with
        | none => rw [hc] at hn; simp at hn
        | some c =>
          obtain ⟨n, bs, hb, ht⟩ := concOf_some hc
          refine .fnMut as r m i s t n bs hb ?_ ht
          refine (firstIsFnMut_iff (hf n bs (G.1 n bs hb).1)).1 ?_
          rcases ht with rfl | ⟨_ | _, rfl⟩ | rfl
          · rw [concOf_name, hb] at hn; simpa using hn
          · rw [concOf_shared, hb] at hn; simpa using hn
          · rw [concOf_exclusive, hb] at hn; simpa using hn
          · rw [concOf_slice, hb] at hn; simpa using hn
      · simp at h
    · rename_i hn
      simp only [gen_pure_ok] at h
      subst h
      refine .same _ ?_
      rintro _ _ n bs ⟨⟩ hb b h1 h2
      apply hn
      rw [concOf_name, hb]
      simpa using (firstIsFnMut_iff (hf n bs (G.1 n bs hb).1)).2 ⟨b, h1, h2⟩
end

/-! ## The properties -/

/-- C61, as far as it holds: the arguments of the expectation of a `#[concretize]` function are those of the
function except `self`, in order and under the same names.  `T`, `&T`, `&mut T` and `&[T]` become `&dyn B`,
`&dyn B`, `&mut dyn B` and `&[&dyn B]` (`&mut dyn B` for an `FnMut`), all else stays; the expression passed on
can be used as such.  The mock method has the signature of the function, with `mut` where it is needed.
`B n` is a list of bounds of `n` that is not empty; it is `none` iff there is none.
Missing: if there are several such lists only one is used (`C61_overwritten`); references to an `FnMut`
(`C61_ref_fnmut`), `FnMut` that is not the first bound (`C61_fnmut_second`), and references with a lifetime or
types that contain a parameter otherwise (`C61_left`). -/
theorem C61_concretize_partial (b : Builder) (f : MockFn) (hc : b.concretize = true) (h : build b = .ok f)
    (hf : ∀ n bs, BoundsOf b.sig.generics n bs → FnMutPlain bs)
    (hq : ∀ n bs, BoundsOf b.sig.generics n bs → ∀ c ∈ bs, NotMaybe c)
    (hr : ∀ as p n, .typed as p (.ref none false (.name n)) ∈ b.sig.inputs →
      ∀ c, Has b.sig.generics n c → ¬ FnMutBound c) :
    ∃ B : Ident → Option (List Bound),
      (∀ n bs, B n = some bs → BoundsOf b.sig.generics n bs ∧ bs ≠ []) ∧
      (∀ n, B n = none → ∀ bs, BoundsOf b.sig.generics n bs → bs = []) ∧
      (∃ vals, Minus (fun a => ¬ IsValueArg a) b.sig.inputs vals ∧ f.args.length = f.callExprs.length ∧
        Pointwise (ArgConcrete b.sig.generics B b.levels) vals (f.args.zip f.callExprs)) ∧
      Pointwise (SigArg B) b.sig.inputs f.sig.inputs ∧
      f.sig.ident = b.sig.ident ∧ f.sig.generics = b.sig.generics ∧ f.sig.output = b.sig.output := by
  obtain ⟨s⟩ := build_steps h
  have hp := s.prep
  simp only [prepare, hc, if_true, concretizeArgs, gen_bind_ok, gen_pure_ok, Prod.mk.injEq] at hp
  obtain ⟨m, h1, hm, h2, outargs, h3, calls, h4, ins, h5, -, hy, hz, hsig⟩ := hp
  obtain ⟨B, H, G⟩ := concrete_map h1 h2
  refine ⟨B, G.1, G.2, ?_, ?_, ?_⟩
  · rw [← hz]
    exact concretize_args H G hf hq hr h3 h4 (by rw [hy]; exact s.args)
  · rw [← hsig]
    exact mapM_pointwise (fun a _ a' ha => concretize_sig H G hf ha) h5
  · rw [← hsig]
    exact ⟨rfl, rfl, rfl⟩

/-- C61: the expectation is not generic in the parameters of the function: whatever the type arguments of the
function are, the key depends on those of the struct only. -/
theorem C61_one_store (b : Builder) (f : MockFn) (hc : b.concretize = true) (h : build b = .ok f) :
    f.isMethodGeneric = false ∧
    (Wf (b.structGenerics.getD {}) → ∀ n, n ∈ f.fnParams ↔ HasTyParam (b.structGenerics.getD {}) n) ∧
    (Wf (b.structGenerics.getD {}) → ∀ k, genKeyid f.egenerics = .ok k → ∀ {C : Type} (σ τ : Ident → TypeId C),
      typeId σ k = typeId τ k ↔ ∀ n, HasTyParam (b.structGenerics.getD {}) n → σ n = τ n) := by
  obtain ⟨s⟩ := build_steps h
  have hp := s.prep
  simp only [prepare, hc, if_true, concretizeArgs, gen_bind_ok, gen_pure_ok, Prod.mk.injEq] at hp
  obtain ⟨m, -, hm, -, outargs, -, calls, -, ins, -, hdg, -⟩ := hp
  have hg := s.gens
  rw [← hdg] at hg
  have hg : s.dg' = {} := by
    simp only [supersuperfyGenerics, List.mapM_nil, gen_bind_ok, gen_pure_ok] at hg
    obtain ⟨_, rfl, hg⟩ := hg
    exact hg.symm
  have hcg := s.mgen
  rw [hg, splitLifetimes] at hcg
  simp only [if_true, gen_pure_ok, Prod.mk.injEq] at hcg
  have hn : Wf (b.structGenerics.getD {}) → ∀ n, n ∈ f.fnParams ↔ HasTyParam (b.structGenerics.getD {}) n := by
    intro hs n
    obtain ⟨w1, t1⟩ := split_typeParams hs s.sgen
    have w2 : Weak f.callGenerics := by rw [← hcg.1]; intro k _; simp
    have t2 : ¬ HasTyParam f.callGenerics n := by rw [← hcg.1]; rintro ⟨p, hp, -⟩; simp at hp
    rw [s.params, typeParams_iff, s.egen,
      merge_mem_keys (merge_weak (ltsToGenerics_weak _)) (ltsToGenerics_weak _),
      merge_mem_keys (by rw [s.cgen]; exact merge_weak w2) (ltsToGenerics_weak _), s.cgen,
      merge_mem_keys w1 w2, ← has_key, ← has_key, t1]
    simp only [ltsToGenerics_noTy, or_false, t2]
  refine ⟨?_, hn, ?_⟩
  · rw [MockFn.isMethodGeneric, ← hcg.1]; rfl
  · intro hs k hk C σ τ
    rw [(keyid_id hk σ τ).2]
    rw [← s.params]
    simp only [hn hs]

/-! ## When it succeeds -/

theorem parenDyn_succeeds (b : List Bound) : Gen.succeeds (parenDyn b) ↔ ∃ c ∈ b, IsTrait c := by
  unfold parenDyn
  split
  · rename_i h
    obtain ⟨c, hc, k⟩ := List.any_eq_true.1 h
    simp only [succeeds_pure, true_iff]
    refine ⟨c, hc, ?_⟩
    split at k
    · trivial
    · cases k
  · rename_i h
    simp only [succeeds_throw, false_iff]
    rintro ⟨c, hc, k⟩
    refine h (List.any_eq_true.2 ⟨c, hc, ?_⟩)
    cases c with
    | trait => rfl
    | lt => exact k.elim
    | other => exact k.elim

theorem saveTypes_succeeds (i : Ident) (b : List Bound) (hm : ConcreteMap) :
    Gen.succeeds (saveTypes i b hm) ↔ b = [] ∨ ∃ c ∈ b, IsTrait c := by
  unfold saveTypes
  split
  · rename_i h; simp [h]
  · rename_i h
    simp only [succeeds_bind, succeeds_pure, and_true, h, false_or]
    exact parenDyn_succeeds b

theorem saveTypesParams_succeeds : ∀ (l : List GParam) (hm : ConcreteMap),
    Gen.succeeds (saveTypesParams l hm) ↔ ∀ p, .ty p ∈ l → p.bounds = [] ∨ ∃ c ∈ p.bounds, IsTrait c
  | [], hm => by simp [saveTypesParams]
  | .ty p :: l, hm => by
    simp only [saveTypesParams, succeeds_bind, saveTypesParams_succeeds l, List.mem_cons, GParam.ty.injEq]
    constructor
    · rintro ⟨a, h, k⟩ q (rfl | hq)
      · exact (saveTypes_succeeds _ _ hm).1 ⟨a, h⟩
      · exact k q hq
    · intro h
      obtain ⟨a, ha⟩ := (saveTypes_succeeds p.id p.bounds hm).2 (h p (.inl rfl))
      exact ⟨a, ha, fun q hq => h q (.inr hq)⟩
  | .lt p :: l, hm => by simp [saveTypesParams, saveTypesParams_succeeds l]
  | .const i t :: l, hm => by simp [saveTypesParams, saveTypesParams_succeeds l]

theorem saveTypesPreds_succeeds : ∀ (l : List WPred) (hm : ConcreteMap),
    Gen.succeeds (saveTypesPreds l hm) ↔
      ∀ ls t bs n, .ty ls t bs ∈ l → IsName n t → bs = [] ∨ ∃ c ∈ bs, IsTrait c
  | [], hm => by simp [saveTypesPreds]
  | .lt p q :: l, hm => by simp [saveTypesPreds, saveTypesPreds_succeeds l]
  | .ty ls t bs :: l, hm => by
    rw [saveTypesPreds]
    split
    · rename_i i hi
      simp only [succeeds_bind, saveTypesPreds_succeeds l, List.mem_cons, WPred.ty.injEq]
      constructor
      · rintro ⟨a, h, k⟩ _ _ _ n (⟨rfl, rfl, rfl⟩ | hq) hn
        · exact (saveTypes_succeeds _ _ hm).1 ⟨a, h⟩
        · exact k _ _ _ n hq hn
      · intro h
        obtain ⟨a, ha⟩ := (saveTypes_succeeds i bs hm).2
          (h ls t bs i (.inl ⟨rfl, rfl, rfl⟩) ((asIdent_iff _ _).1 hi))
        exact ⟨a, ha, fun _ _ _ n hq => h _ _ _ n (.inr hq)⟩
    · rename_i hi
      simp only [saveTypesPreds_succeeds l, List.mem_cons, WPred.ty.injEq]
      constructor
      · rintro h _ _ _ n (⟨rfl, rfl, rfl⟩ | hq) hn
        · rw [(asIdent_iff _ _).2 hn] at hi; cases hi
        · exact h _ _ _ n hq hn
      · intro h _ _ _ n hq
        exact h _ _ _ n (.inr hq)

theorem demutifyPat_succeeds (p : Pat) : Gen.succeeds (demutifyPat p) ↔ ∃ m i, p = .ident false m i false := by
  constructor
  · rintro ⟨p', h⟩
    cases demutifyPat_ok h with
    | mk m i => exact ⟨m, i, rfl⟩
  · rintro ⟨m, i, rfl⟩
    exact ⟨_, rfl⟩

/-- C61: `#[concretize]` is accepted iff every parameter that has bounds has a trait among them (in each list),
and every argument is `self` or has a name. -/
theorem C61_total (sig : Sig) : Gen.succeeds (concretizeArgs sig) ↔
    (∀ n bs, BoundsOf sig.generics n bs → bs = [] ∨ ∃ c ∈ bs, IsTrait c) ∧ ∀ a ∈ sig.inputs, PlainArg a := by
  simp only [concretizeArgs, succeeds_bind, succeeds_pure, and_true]
  constructor
  · rintro ⟨m, h1, hm, h2, o, h3, c, -, -⟩
    refine ⟨?_, ?_⟩
    · rintro n bs (⟨p, hp, rfl⟩ | ⟨ls, t, bs, hp, hn⟩)
      · exact (saveTypesParams_succeeds _ _).1 ⟨m, h1⟩ p hp
      · exact (saveTypesPreds_succeeds _ _).1 ⟨hm, h2⟩ _ _ _ n hp hn
    · intro a ha
      have := mapM_succeeds.1 ⟨o, h3⟩ a ha
      cases a with
      | receiver => trivial
      | typed as p t =>
        simp only [concretizeArg, succeeds_bind] at this
        obtain ⟨p', hp, -⟩ := this
        exact (demutifyPat_succeeds p).1 ⟨p', hp⟩
  · rintro ⟨h1, h2⟩
    obtain ⟨m, hm⟩ := (saveTypesParams_succeeds sig.generics.params []).2 fun p hp =>
      h1 p.id p.bounds (.param p hp rfl)
    obtain ⟨k, hk⟩ := (saveTypesPreds_succeeds (sig.generics.preds.getD []) m).2 fun ls t bs n hp hn =>
      h1 n bs (.pred ls t bs hp hn)
    have a1 : Gen.succeeds (sig.inputs.mapM (concretizeArg k)) := by
      refine mapM_succeeds.2 fun a ha => ?_
      have := h2 a ha
      cases a with
      | receiver => exact ⟨_, rfl⟩
      | typed as p t =>
        obtain ⟨mu, i, rfl⟩ := this
        simp only [concretizeArg, succeeds_bind]
        refine ⟨_, rfl, ?_⟩
        split <;> simp
    have a2 : Gen.succeeds (sig.inputs.mapM (concretizeCall k)) := by
      refine mapM_succeeds.2 fun a ha => ?_
      have := h2 a ha
      cases a with
      | receiver => exact ⟨_, rfl⟩
      | typed as p t =>
        obtain ⟨mu, i, rfl⟩ := this
        simp only [concretizeCall, succeeds_bind]
        refine ⟨_, rfl, ?_⟩
        repeat' split
        all_goals simp
    have a3 : Gen.succeeds (sig.inputs.mapM (concretizeSigArg k)) := by
      refine mapM_succeeds.2 fun a ha => ?_
      have := h2 a ha
      cases a with
      | receiver => exact ⟨_, rfl⟩
      | typed as p t =>
        obtain ⟨mu, i, rfl⟩ := this
        simp only [concretizeSigArg]
        split <;> simp
    obtain ⟨o, ho⟩ := a1
    obtain ⟨c, hc⟩ := a2
    obtain ⟨i, hi⟩ := a3
    exact ⟨m, hm, k, hk, o, ho, c, hc, i, hi⟩

/-! ## What does not hold, and examples -/

/-- A concretized method with these generics and one argument `x` of this type. -/
def concr (g : Generics) (t : Ty) : Builder where
  sig := { ident := "f", generics := g, inputs := [.receiver (some none) false false (.name "Self"),
    .typed [] (.ident false false "x" false) t] }
  concretize := true

/-- A bound by a trait without arguments. -/
def tr (n : Ident) : Bound := .trait false [] false [.of n]

/-- `FnMut()`. -/
def fnMut0 : Bound := .trait false [] false [.mk "FnMut" (.paren [] .unit)]

/-- The types of the arguments of the expectation and what is passed. -/
def argsOf (b : Builder) : Option (List Ty × List CallArg) :=
  (build b).toOption.map fun f => (f.args.map BArg.ty, f.callExprs)

theorem argsOf_some {b : Builder} {x : List Ty × List CallArg} (h : argsOf b = some x) :
    ∃ f, build b = .ok f ∧ f.args.map BArg.ty = x.1 ∧ f.callExprs = x.2 := by
  unfold argsOf at h
  cases hb : build b with
  | error e => rw [hb] at h; simp [Except.toOption] at h
  | ok f =>
    rw [hb] at h
    simp only [Except.toOption, Option.map_some, Option.some.injEq] at h
    exact ⟨f, rfl, by rw [← h], by rw [← h]⟩

/-- `fn f<T: A>(&self, x: T) where T: B`: the bound `A` is lost. -/
theorem C61_overwritten : ∃ b f, b.concretize = true ∧ build b = .ok f ∧ Has b.sig.generics "T" (tr "A") ∧
    Has b.sig.generics "T" (tr "B") ∧
    b.sig.inputs.tail = [.typed [] (.ident false false "x" false) (.name "T")] ∧
    f.args.map BArg.ty = [.ref none false (dynTy [tr "B"])] := by
  let g : Generics := { angle := true, params := [.ty { id := "T", bounds := [tr "A"] }],
                        preds := some [.ty none (.name "T") [tr "B"]] }
  obtain ⟨f, hf, h1, -⟩ := argsOf_some (b := concr g (.name "T"))
    (x := ([.ref none false (dynTy [tr "B"])], [.ref false (.ident false false "x" false)])) (by decide +kernel)
  exact ⟨_, f, rfl, hf, ⟨[tr "A"], .param { id := "T", bounds := [tr "A"] } (List.mem_singleton.2 rfl) rfl,
    List.mem_singleton.2 rfl⟩,
    ⟨[tr "B"], .pred _ _ _ (List.mem_singleton.2 rfl) (.name (by decide)), List.mem_singleton.2 rfl⟩, rfl, h1⟩

/-- `fn f<F: FnMut()>(&self, x: &F)`: the expectation wants `&mut dyn FnMut()`, and `x` is passed, which is
`&F`. -/
theorem C61_ref_fnmut : ∃ b f, b.concretize = true ∧ build b = .ok f ∧ Has b.sig.generics "F" fnMut0 ∧
    b.sig.inputs.tail = [.typed [] (.ident false false "x" false) (.ref none false (.name "F"))] ∧
    f.args.map BArg.ty = [.ref none true (dynTy [fnMut0])] ∧
    f.callExprs = [.plain (.ident false false "x" false)] ∧
    ¬ Fits b.sig.generics (callTy (.plain (.ident false false "x" false)) (.ref none false (.name "F")))
      (.ref none true (dynTy [fnMut0])) := by
  let g : Generics := { angle := true, params := [.ty { id := "F", bounds := [fnMut0] }] }
  obtain ⟨f, hf, h1, h2⟩ := argsOf_some (b := concr g (.ref none false (.name "F")))
    (x := ([.ref none true (dynTy [fnMut0])], [.plain (.ident false false "x" false)])) (by decide +kernel)
  refine ⟨_, f, rfl, hf, ⟨[fnMut0], .param { id := "F", bounds := [fnMut0] } (List.mem_singleton.2 rfl) rfl,
    List.mem_singleton.2 rfl⟩, rfl, h1, h2, ?_⟩
  intro h
  generalize hx : callTy _ _ = x at h
  generalize hy : Ty.ref none true _ = y at h
  cases h with
  | same => subst hx; cases hy
  | unsize => cases hx; cases hy
  | vec => cases hy

/-- `fn f<F: Send + FnMut()>(&self, x: F)`: the expectation gets `&dyn Send + FnMut()`, a shared reference,
through which the closure cannot be called. -/
theorem C61_fnmut_second : ∃ b f, b.concretize = true ∧ build b = .ok f ∧ Has b.sig.generics "F" fnMut0 ∧
    FnMutBound fnMut0 ∧ b.sig.inputs.tail = [.typed [] (.ident false false "x" false) (.name "F")] ∧
    f.args.map BArg.ty = [.ref none false (dynTy [tr "Send", fnMut0])] := by
  let g : Generics := { angle := true, params := [.ty { id := "F", bounds := [tr "Send", fnMut0] }] }
  obtain ⟨f, hf, h1, -⟩ := argsOf_some (b := concr g (.name "F"))
    (x := ([.ref none false (dynTy [tr "Send", fnMut0])], [.ref false (.ident false false "x" false)]))
    (by decide +kernel)
  exact ⟨_, f, rfl, hf, ⟨_, .param _ (List.mem_singleton.2 rfl) rfl, by simp⟩, ⟨[], _, rfl⟩, rfl, h1⟩

/-- `fn f<'a, T: A>(&self, x: &'a T)` and `fn f<T: A>(&self, x: Option<T>)`: the argument keeps the parameter `T`,
which the expectation does not have. -/
theorem C61_left (t : Ty) (ht : t = .ref (some "a") false (.name "T") ∨
    t = .path false [.mk "Option" (.angle [.ty (.name "T")])]) :
    ∃ b f, b.concretize = true ∧ build b = .ok f ∧ Has b.sig.generics "T" (tr "A") ∧
      b.sig.inputs.tail = [.typed [] (.ident false false "x" false) t] ∧
      f.args.map BArg.ty = [t] ∧ f.fnParams = [] := by
  let g : Generics := { angle := true, params := [.lt { lt := "a" }, .ty { id := "T", bounds := [tr "A"] }] }
  have key : argsOf (concr g t) = some ([t], [.plain (.ident false false "x" false)]) := by
    rcases ht with rfl | rfl <;> decide +kernel
  obtain ⟨f, hf, h1, -⟩ := argsOf_some key
  have hn := (C61_one_store _ f rfl hf).2.1 (fun _ => rfl)
  refine ⟨_, f, rfl, hf, ⟨_, .param _ (List.mem_cons_of_mem _ (List.mem_singleton.2 rfl)) rfl,
    List.mem_singleton.2 rfl⟩, rfl, h1, ?_⟩
  rw [List.eq_nil_iff_forall_not_mem]
  intro n hm
  obtain ⟨p, hp, -⟩ := (hn n).1 hm
  simp [concr] at hp

/-- `fn f<T: AsRef<Path>, F: FnMut()>(&self, x: &[T], mut y: F, z: super::A)`. -/
def exConcr : Builder where
  sig := { ident := "f",
           generics := { angle := true, params := [.ty { id := "T", bounds := [tr "A", tr "Send"] },
             .ty { id := "F", bounds := [fnMut0] }] }
           inputs := [.receiver (some none) false false (.name "Self"),
             .typed [] (.ident false false "x" false) (.ref none false (.slice (.name "T"))),
             .typed [] (.ident false true "y" false) (.name "F"),
             .typed [] (.ident false false "z" false) (.path false [.of "super", .of "A"])] }
  levels := 2
  structGenerics := some { angle := true, params := [.ty { id := "S" }] }
  concretize := true

example : argsOf exConcr = some
    ([.ref none false (.slice (.ref none false (dynTy [tr "A", tr "Send"]))), .ref none true (dynTy [fnMut0]),
      .path false [.of "super", .of "super", .of "super", .of "A"]],
     [.slice (.ident false false "x" false) [tr "A", tr "Send"], .ref true (.ident false false "y" false),
      .plain (.ident false false "z" false)]) := by decide +kernel

example : (build exConcr).toOption.map MockFn.fnParams = some ["S"] := by decide +kernel

example : (∀ n bs, BoundsOf exConcr.sig.generics n bs → FnMutPlain bs) ∧
    (∀ n bs, BoundsOf exConcr.sig.generics n bs → ∀ c ∈ bs, NotMaybe c) ∧
    (∀ as p n, .typed as p (.ref none false (.name n)) ∈ exConcr.sig.inputs →
      ∀ c, Has exConcr.sig.generics n c → ¬ FnMutBound c) := by
  have hb : ∀ n bs, BoundsOf exConcr.sig.generics n bs → bs = [tr "A", tr "Send"] ∨ bs = [fnMut0] := by
    rintro n bs (⟨p, hp, rfl⟩ | ⟨ls, t, bs, hp, hn⟩)
    · simp only [exConcr, List.mem_cons, GParam.ty.injEq, List.not_mem_nil, or_false] at hp
      rcases hp with rfl | rfl
      · exact .inl rfl
      · exact .inr rfl
    · simp [exConcr] at hp
  refine ⟨fun n bs h => ?_, fun n bs h => ?_, ?_⟩
  · rcases hb n bs h with rfl | rfl
    · simp [FnMutPlain, tr, boundSegs, Seg.of, Seg.id]
    · simp [FnMutPlain, fnMut0, boundSegs, Seg.id]
  · rcases hb n bs h with rfl | rfl <;> simp [NotMaybe, tr, fnMut0]
  · intro as p n h
    simp [exConcr, Ty.name] at h

end Mockall.Props
