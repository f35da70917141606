import Verif.Spec.Mockable
import Verif.Props.DeriveObjects
import Verif.Props.DeriveModule
import Verif.Props.DeriveTypes
import Verif.Props.DeriveAttrs

/-! # C65: `#[automock]` on traits -/

namespace Mockall.Props

open Derive Spec

/-! ## Signatures -/

/-- The same argument but for `mut`. -/
inductive Remut : FnArg → FnArg → Prop
  | receiver (r m c t) : Remut (.receiver r m c t) (.receiver r m c t)
  | typed (a m m' i t) : Remut (.typed a (.ident false m i false) t) (.typed a (.ident false m' i false) t)

theorem mockArgs_remut {A : Ty → Ty} {R : Rewrite} : ∀ {l l' l'' : List FnArg} {ls : List Lt},
    MockArgs A R l l' ls → Pointwise Remut l' l'' → MockArgs A R l l'' ls
  | _, _, _, _, .nil, .nil => .nil
  | _, _, _, _, .receiver r m m' c u hm hs, .cons (.receiver ..) k => .receiver r m m' c u hm (mockArgs_remut hs k)
  | _, _, _, _, .typed a m m' i u u' h h0 hs, .cons (.typed ..) k => .typed a m _ i u u' h h0 (mockArgs_remut hs k)

/-- What `substitute_trait` does to the arguments. -/
inductive SubstArg (A : Ty → Ty) : FnArg → FnArg → Prop
  | receiver (r m c t) : SubstArg A (.receiver r m c t) (.receiver r m c t)
  | typed (a p t) : SubstArg A (.typed a p t) (.typed a p (A t))

theorem mockArgs_subst {A : Ty → Ty} {R : Rewrite} : ∀ {l l' l'' : List FnArg} {ls : List Lt},
    Pointwise (SubstArg A) l l' → MockArgs id R l' l'' ls → MockArgs A R l l'' ls
  | _, _, _, _, .nil, .nil => .nil
  | _, _, _, _, .cons (.receiver ..) k, .receiver r m m' c u hm hs => .receiver r m m' c u hm (mockArgs_subst k hs)
  | _, _, _, _, .cons (.typed _ _ _) k, .typed a m m' i _ u' h h0 hs =>
    .typed a m _ i _ u' h h0 (mockArgs_subst k hs)

/-- The steps of `mockable_method` on the arguments. -/
theorem mockable_args {name : Ident} {g : Generics} : ∀ {l l1 l2 l3 : List FnArg} {p : List GParam},
    (∀ a q u, .typed a q u ∈ l → All NotSelf (unseen selfBlind u) ∧
      hidden (rewrite (selfRewrite name (paramArgs g.params)) u) = 0) →
    (∀ r m u, .receiver r m true u ∈ l → All NotSelf (unseen selfBlind u)) →
    demutify l = .ok l1 → l1.mapM (deselfifyArg name g) = .ok l2 → addToArgs l2 = .ok (l3, p) →
    ∃ ls, MockArgs id (selfRewrite name (paramArgs g.params)) l l3 ls ∧ p = ls.map fun l => .lt { lt := l }
  | [], l1, l2, l3, p, _, _, h1, h2, h3 => by
    simp only [demutify, gen_pure_ok] at h1
    subst h1
    simp only [List.mapM_nil, gen_pure_ok] at h2
    subst h2
    simp only [addToArgs, gen_pure_ok, Prod.mk.injEq] at h3
    obtain ⟨rfl, rfl⟩ := h3
    exact ⟨[], .nil, rfl⟩
  | .receiver r m c t :: l, l1, l2, l3, p, hv, hr, h1, h2, h3 => by
    simp only [demutify, gen_bind_ok, gen_pure_ok] at h1
    obtain ⟨l1', h1, rfl⟩ := h1
    simp only [List.mapM_cons, gen_bind_ok, gen_pure_ok] at h2
    obtain ⟨a, ha, l2', h2, rfl⟩ := h2
    have ha : a = .receiver r (if r.isNone then false else m) c
        (if c then rewrite (selfRewrite name (paramArgs g.params)) t else t) := by
      rw [deselfifyArg] at ha
      cases c with
      | true =>
        simp only [if_true, gen_bind_ok, gen_pure_ok] at ha
        obtain ⟨t', ht, rfl⟩ := ha
        rw [deselfify_rewrite (fun a ha => selfArgs_eq ha) t t' (hr _ _ _ List.mem_cons_self) ht]
        simp
      | false =>
        simp only [Bool.false_eq_true, if_false, gen_pure_ok] at ha ⊢
        exact ha.symm
    subst ha
    simp only [addToArgs, gen_bind_ok, gen_pure_ok, Prod.mk.injEq] at h3
    obtain ⟨⟨l3', p'⟩, h3, rfl, rfl⟩ := h3
    obtain ⟨ls, k1, k2⟩ := mockable_args (fun a q u hu => hv a q u (List.mem_cons_of_mem _ hu))
      (fun r m u hu => hr r m u (List.mem_cons_of_mem _ hu)) h1 h2 h3
    exact ⟨ls, .receiver r m _ c t (by cases r <;> simp) k1, k2⟩
  | .typed a q t :: l, l1, l2, l3, p, hv, hr, h1, h2, h3 => by
    simp only [demutify, gen_bind_ok, gen_pure_ok] at h1
    obtain ⟨q', hq, l1', h1, rfl⟩ := h1
    simp only [List.mapM_cons, gen_bind_ok, gen_pure_ok, deselfifyArg] at h2
    obtain ⟨_, ⟨t', ht, rfl⟩, l2', h2, rfl⟩ := h2
    have hvt := hv _ _ _ List.mem_cons_self
    have ht := deselfify_rewrite (fun a ha => selfArgs_eq ha) t t' hvt.1 ht
    simp only [addToArgs, gen_bind_ok, gen_pure_ok, Prod.mk.injEq] at h3
    obtain ⟨⟨t'', p1⟩, ht2, ⟨l3', p'⟩, h3, rfl, rfl⟩ := h3
    obtain ⟨ls, k1, rfl⟩ := mockable_args (fun a q u hu => hv a q u (List.mem_cons_of_mem _ hu))
      (fun r m u hu => hr r m u (List.mem_cons_of_mem _ hu)) h1 h2 h3
    obtain ⟨m, i⟩ := demutifyPat_ok hq
    obtain ⟨n, e1, e2, e3, rfl⟩ := addToType_ok ht2
    subst ht
    rw [hvt.2] at e2 e3
    refine ⟨List.replicate n (objectLt i) ++ ls, ?_, by simp⟩
    rw [Nat.zero_add] at e3
    rw [← e3]
    exact .typed a m false i t t'' e1 e2 k1

theorem dewhereselfify_minus (g : Generics) :
    Minus OnSelf (g.preds.getD []) ((dewhereselfify g).preds.getD []) := by
  simp only [dewhereselfify]
  cases g.preds with
  | none => exact .nil
  | some wc =>
    have key : Minus OnSelf wc (wc.filter keepNotSelf) := by
      refine minus_filter _ _ _ fun w _ => ?_
      cases w with
      | lt l b => simp [keepNotSelf, OnSelf]
      | ty ls t bs => simp [keepNotSelf, OnSelf]
    dsimp only
    split
    · rename_i he
      simpa [he] using key
    · simpa using key

/-- `mockable_method`, on the signature. -/
theorem mockableMethod_ok {name : Ident} {g : Generics} {f f' : ImplFn}
    (hv : Visible id (selfRewrite name (paramArgs g.params)) f.sig) (h : mockableMethod name g f = .ok f') :
    f'.attrs = f.attrs ∧ f'.vis = f.vis ∧ f'.qual = f.qual ∧
      MockSig id (selfRewrite name (paramArgs g.params)) f.sig f'.sig := by
  simp only [mockableMethod, gen_bind_ok, gen_pure_ok, addLifetimeParameters] at h
  obtain ⟨l1, h1, l2, h2, s, ⟨⟨l3, p⟩, h3, rfl⟩, o, ho, _, -, rfl⟩ := h
  refine ⟨rfl, rfl, rfl, rfl, ?_, dewhereselfify_minus _, ?_⟩
  · obtain ⟨ls, k1, k2⟩ := mockable_args hv.arg hv.receiver h1 h2 h3
    exact ⟨ls, k1, by rw [← k2]; rfl⟩
  · refine ⟨deimplify f.sig.output, ?_, ?_⟩
    · have : onRet id f.sig.output = f.sig.output := by cases f.sig.output <;> rfl
      rw [this]
      exact deimplify_returns _
    · dsimp only at ho ⊢
      have hd := deimplify_returns f.sig.output
      cases hr : deimplify f.sig.output with
      | unit =>
        rw [hr, mockableOutput] at ho
        simp only [gen_pure_ok] at ho
        rw [← ho]; rfl
      | ty q =>
        rw [hr, mockableOutput] at ho
        simp only [gen_bind_ok, gen_pure_ok] at ho
        obtain ⟨q1, hq1, q2, hq2, rfl⟩ := ho
        rw [hr] at hd
        have hu : ∃ u, f.sig.output = .ty u := by
          cases hu : f.sig.output with
          | unit => rw [hu] at hr; simp [deimplify] at hr
          | ty u => exact ⟨u, rfl⟩
        obtain ⟨u, hu⟩ := hu
        obtain ⟨v1, v2⟩ := hv.output u q hu (by rw [hu] at hd; exact hd)
        have e1 := deselfify_rewrite (fun a ha => selfArgs_eq ha) q q1 v1 hq1
        subst e1
        have e2 := deanonymize_rewrite _ q2 v2 hq2
        rw [e2]; rfl

theorem mockableTraitMethod_eq (name : Ident) (g : Generics) (f : TraitFn) (v : Vis) :
    mockableMethod name g (tif2iif f v) = (mockableTraitMethod name g f).map (tif2iif · v) := by
  simp only [mockableMethod, mockableTraitMethod, tif2iif]
  cases demutify f.sig.inputs with
  | error e => rfl
  | ok l1 =>
    simp only [bind, Except.bind]
    cases l1.mapM (deselfifyArg name g) with
    | error e => rfl
    | ok l2 =>
      dsimp only
      cases addLifetimeParameters { f.sig with inputs := l2 } with
      | error e => rfl
      | ok s =>
        dsimp only
        cases mockableOutput name g (deimplify s.output) with
        | error e => rfl
        | ok o =>
          dsimp only
          split <;> simp_all [Except.map, pure, Except.pure]

/-- `substitute_trait` on a signature. -/
theorem substSig_ok {σ : Subst} {trait : Ident} {s s' : Sig} (hv : VisibleAssoc s)
    (h : substSig σ trait s = .ok s') :
    s'.ident = s.ident ∧ s'.generics = s.generics ∧
      Pointwise (SubstArg (replace (assocReplace (fun i => σ.lookup i) trait))) s.inputs s'.inputs ∧
      s'.output = onRet (replace (assocReplace (fun i => σ.lookup i) trait)) s.output := by
  simp only [substSig, gen_bind_ok, gen_pure_ok] at h
  obtain ⟨l, hl, o, ho, rfl⟩ := h
  refine ⟨rfl, rfl, mapM_pointwise (fun a ha b hb => ?_) hl, ?_⟩
  · cases a with
    | receiver r m c t =>
      simp only [substArg, gen_pure_ok] at hb
      subst hb
      exact .receiver ..
    | typed a p t =>
      simp only [substArg, gen_bind_ok, gen_pure_ok] at hb
      obtain ⟨t', ht, rfl⟩ := hb
      rw [C51_assoc_substituted_partial σ trait t t' (hv.arg _ _ _ ha) ht]
      exact .typed ..
  · dsimp only
    cases hu : s.output with
    | unit =>
      rw [hu, substRet] at ho
      simp only [gen_pure_ok] at ho
      exact ho.symm
    | ty u =>
      rw [hu, substRet] at ho
      simp only [gen_bind_ok, gen_pure_ok] at ho
      obtain ⟨t', ht, rfl⟩ := ho
      rw [C51_assoc_substituted_partial σ trait u t' (hv.output _ hu) ht]
      rfl

/-- The two together. -/
theorem mockSig_comp {σ : Subst} {trait : Ident} {s s1 : Sig} {R : Rewrite} (hv : VisibleAssoc s)
    (h : substSig σ trait s = .ok s1) :
    (Visible (replace (assocReplace (fun i => σ.lookup i) trait)) R s → Visible id R s1) ∧
    (∀ s2, MockSig id R s1 s2 → MockSig (replace (assocReplace (fun i => σ.lookup i) trait)) R s s2) := by
  obtain ⟨h1, h2, h3, h4⟩ := substSig_ok hv h
  constructor
  · intro k
    refine ⟨?_, ?_, ?_⟩
    · intro a p u hu
      obtain ⟨b, hb, e⟩ := pointwise_mem h3 _ hu
      cases e
      exact k.arg _ _ _ hb
    · intro r m u hu
      obtain ⟨b, hb, e⟩ := pointwise_mem h3 _ hu
      cases e
      exact k.receiver _ _ _ hb
    · intro u q hu hq
      rw [hu] at h4
      cases hs : s.output with
      | unit => rw [hs] at h4; cases h4
      | ty v =>
        rw [hs] at h4
        cases h4
        exact k.output v q hs hq
  · intro s2 k
    refine ⟨k.name.trans h1, ?_, ?_, ?_⟩
    · obtain ⟨ls, k1, k2⟩ := k.inputs
      exact ⟨ls, mockArgs_subst h3 k1, by rw [k2, h2]⟩
    · rw [← h2]; exact k.preds
    · obtain ⟨q, k1, k2⟩ := k.output
      refine ⟨q, ?_, k2⟩
      rw [h4] at k1
      have : ∀ r, onRet id r = r := fun r => by cases r <;> rfl
      rwa [this] at k1

/-- `Builder::build` only changes the `mut` of arguments. -/
theorem methOf_sig {g : Generics} {t : Option Ident} {v : Vis} {attrs : List Attr} {q : Qual} {sig : Sig}
    {m : Meth} (h : methOf g t v attrs q sig = .ok m) :
    m.attrs = attrs ∧ m.trait = t ∧ m.qual = q ∧ m.fn.sig.ident = sig.ident ∧
      m.fn.sig.generics = sig.generics ∧ m.fn.sig.output = sig.output ∧
      ((∀ a ∈ sig.inputs, PlainArg a) → Pointwise Remut sig.inputs m.fn.sig.inputs) := by
  simp only [methOf, gen_bind_ok, gen_pure_ok] at h
  obtain ⟨f, hf, rfl⟩ := h
  refine ⟨rfl, rfl, rfl, ?_⟩
  obtain ⟨s⟩ := build_steps hf
  have hp := s.prep
  unfold prepare at hp
  split at hp
  · simp only [concretizeArgs, gen_bind_ok, gen_pure_ok, Prod.mk.injEq] at hp
    obtain ⟨hm, -, hm', -, _, -, _, -, l, hl, -, -, -, h⟩ := hp
    dsimp only
    rw [← h]
    refine ⟨rfl, rfl, rfl, fun hp => mapM_pointwise (fun a ha b hb => ?_) hl⟩
    cases a with
    | receiver r m c t =>
      simp only [concretizeSigArg, gen_pure_ok] at hb
      subst hb
      exact .receiver ..
    | typed a p t =>
      obtain ⟨m, i, rfl⟩ := hp _ ha
      rw [concretizeSigArg] at hb
      split at hb
      · simp only [gen_pure_ok] at hb
        subst hb
        exact .typed ..
      · simp only [gen_pure_ok] at hb
        subst hb
        exact .typed ..
  · simp only [gen_bind_ok, gen_pure_ok, Prod.mk.injEq] at hp
    obtain ⟨_, -, -, -, -, h⟩ := hp
    dsimp only
    rw [← h]
    refine ⟨rfl, rfl, rfl, fun hp => ?_⟩
    generalize sig.inputs = l at hp
    induction l with
    | nil => exact .nil
    | cons a l ih =>
      refine .cons ?_ (ih fun a ha => hp a (List.mem_cons_of_mem _ ha))
      cases a with
      | receiver r m c t => exact .receiver ..
      | typed a p t =>
        obtain ⟨m, i, rfl⟩ := hp _ List.mem_cons_self
        exact .typed ..

theorem mockArgs_plain {A : Ty → Ty} {R : Rewrite} : ∀ {l l' : List FnArg} {ls : List Lt},
    MockArgs A R l l' ls → ∀ a ∈ l', PlainArg a
  | _, _, _, .nil => fun _ h => nomatch h
  | _, _, _, .receiver r m m' c u hm hs => fun a ha => by
    rcases List.mem_cons.1 ha with rfl | ha
    · trivial
    · exact mockArgs_plain hs a ha
  | _, _, _, .typed a m m' i u u' h h0 hs => fun b hb => by
    rcases List.mem_cons.1 hb with rfl | hb
    · exact ⟨m', i, rfl⟩
    · exact mockArgs_plain hs b hb

theorem mockSig_build {A : Ty → Ty} {R : Rewrite} {s s1 : Sig} {g : Generics} {t : Option Ident} {v : Vis}
    {attrs : List Attr} {q : Qual} {m : Meth} (h : methOf g t v attrs q s1 = .ok m) (k : MockSig A R s s1) :
    MockSig A R s m.fn.sig := by
  obtain ⟨-, -, -, h1, h2, h3, h4⟩ := methOf_sig h
  obtain ⟨ls, k1, k2⟩ := k.inputs
  exact ⟨h1.trans k.name, ⟨ls, mockArgs_remut k1 (h4 (mockArgs_plain k1)), by rw [h2, k2]⟩, by rw [h2]; exact k.preds,
    by rw [h3]; exact k.output⟩

/-! ## The code generated -/

/-- The methods among the items of an `impl`. -/
def implFns (l : List ImplItem) : List ImplFn := l.filterMap fun | .fn f => some f | _ => none

theorem traitMethods_pointwise {g : Generics} {ss : Ident} {v : Vis} : ∀ {l : List ImplItem} {ms : List Meth},
    traitMethods g ss v l = .ok ms →
      Pointwise (fun f m => methOf g (some ss) v f.attrs f.qual f.sig = .ok m) (implFns l) ms
  | [], ms, h => by
    simp only [traitMethods, gen_pure_ok] at h
    subst h
    exact .nil
  | .const _ :: l, ms, h => by
    rw [traitMethods] at h
    · exact traitMethods_pointwise (l := l) h
    all_goals (intros; rename_i e; cases e)
  | .type _ :: l, ms, h => by
    rw [traitMethods] at h
    · exact traitMethods_pointwise (l := l) h
    all_goals (intros; rename_i e; cases e)
  | .other _ :: l, ms, h => by
    simp [traitMethods] at h
  | .fn f :: l, ms, h => by
    simp only [traitMethods, gen_bind_ok, gen_pure_ok] at h
    obtain ⟨m, hm, r, hr, rfl⟩ := h
    exact .cons hm (traitMethods_pointwise hr)

theorem implemented_append (l m : List Item) : implemented (l ++ m) = implemented l ++ implemented m :=
  List.filterMap_append ..

theorem implemented_subs {g : Generics} : ∀ {l : List SubStruct} {ls : List (List Item)},
    l.mapM (SubStruct.items g) = .ok ls → implemented ls.flatten = []
  | [], ls, h => by
    simp only [List.mapM_nil, gen_pure_ok] at h
    subst h; rfl
  | s :: l, ls, h => by
    simp only [List.mapM_cons, gen_bind_ok, gen_pure_ok] at h
    obtain ⟨a, ha, ls', hl, rfl⟩ := h
    simp only [SubStruct.items, gen_bind_ok, gen_pure_ok] at ha
    obtain ⟨p, -, rfl⟩ := ha
    rw [List.flatten_cons, implemented_append, implemented_subs hl]
    rfl

/-- The traits that the code implements are those of the definition. -/
theorem implemented_items {m : MockItemStruct} {items : List Item} (h : m.items = .ok items) :
    implemented items = m.traits.map MockTrait.path := by
  simp only [MockItemStruct.items, gen_bind_ok, gen_pure_ok] at h
  obtain ⟨ph, -, subs, hsubs, rfl⟩ := h
  simp only [implemented_append, implemented_subs hsubs]
  have hd : implemented m.debugImpl = [] := by
    rw [MockItemStruct.debugImpl]
    split <;> rfl
  have ht : ∀ l : List MockTrait, implemented (l.flatMap fun t => t.implItems (m.modname ++ "_" ++ t.ssName)) =
      l.map MockTrait.path := by
    intro l
    induction l with
    | nil => rfl
    | cons t l ih =>
      rw [List.flatMap_cons, implemented_append, ih]
      rfl
  rw [hd, ht]
  rfl

theorem filterMap_all {α β : Type} {f : α → Option β} {g : α → β} : ∀ {l : List α},
    (∀ a ∈ l, f a = some (g a)) → l.filterMap f = l.map g
  | [], _ => rfl
  | a :: l, h => by
    rw [List.filterMap_cons, h a List.mem_cons_self, List.map_cons,
      filterMap_all fun b hb => h b (List.mem_cons_of_mem _ hb)]

theorem append_congr {α : Type} {a b c d : List α} (h : a = c) (k : b = d) : a ++ b = c ++ d := by rw [h, k]

theorem typeArgs_eq {g : Generics} (h : LtsFirst g.params) : typeArgs g = paramArgs g.params := by
  obtain ⟨ls, ts, e, hl, ht⟩ := h
  rw [typeArgs, paramArgs]
  by_cases hn : g.params = []
  · rw [if_pos hn, if_pos hn]
  · rw [if_neg hn, if_neg hn, e]
    congr 1
    rw [List.filterMap_append, List.filterMap_append, List.map_append]
    refine (append_congr (append_congr (filterMap_all (g := paramArg) ?_)
      (List.filterMap_eq_nil_iff.2 ?_)) (append_congr (List.filterMap_eq_nil_iff.2 ?_)
        (filterMap_all (g := paramArg) ?_))).trans (by simp)
    · intro p hp; obtain ⟨q, rfl⟩ := hl p hp; rfl
    · intro p hp
      cases p with
      | lt q => exact absurd rfl (ht _ hp q)
      | ty q => rfl
      | const i t => rfl
    · intro p hp; obtain ⟨q, rfl⟩ := hl p hp; rfl
    · intro p hp
      cases p with
      | lt q => exact absurd rfl (ht _ hp q)
      | ty q => rfl
      | const i t => rfl

/-- What becomes of the items of a trait. -/
theorem mockableTrait_items {σ : Subst} {trait name : Ident} {g : Generics} :
    ∀ {l l1 : List TraitItem} {l2 : List ImplItem},
    l.mapM (substTraitItem σ trait) = .ok l1 → l1.mapM (mockableTraitItem name g) = .ok l2 →
    Pointwise MocksConst (traitConstants l) (traitConsts l2) ∧
    Pointwise (MocksType fun i => σ.lookup i) (traitTypeItems l) (traitTypes l2) ∧
    Pointwise (fun f f2 => ∃ f1, substSig σ trait f.sig = .ok f1 ∧
      mockableMethod name g { attrs := f.attrs, qual := f.qual, sig := f1 } = .ok f2) (traitFns l) (implFns l2)
  | [], l1, l2, h1, h2 => by
    simp only [List.mapM_nil, gen_pure_ok] at h1
    subst h1
    simp only [List.mapM_nil, gen_pure_ok] at h2
    subst h2
    exact ⟨.nil, .nil, .nil⟩
  | i :: l, l1, l2, h1, h2 => by
    simp only [List.mapM_cons, gen_bind_ok, gen_pure_ok] at h1
    obtain ⟨i1, hi1, l1', hl1, rfl⟩ := h1
    simp only [List.mapM_cons, gen_bind_ok, gen_pure_ok] at h2
    obtain ⟨i2, hi2, l2', hl2, rfl⟩ := h2
    obtain ⟨k1, k2, k3⟩ := mockableTrait_items hl1 hl2
    cases i with
    | const c =>
      simp only [substTraitItem, gen_pure_ok] at hi1
      subst hi1
      simp only [mockableTraitItem, tic2iic, gen_bind_ok, gen_pure_ok] at hi2
      obtain ⟨d, hd, rfl⟩ := hi2
      split at hd
      · cases hd
      · rename_i v hv
        simp only [gen_pure_ok] at hd
        subst hd
        exact ⟨.cons ⟨rfl, rfl, rfl, rfl, hv⟩ k1, k2, k3⟩
    | fn f =>
      simp only [substTraitItem, gen_bind_ok, gen_pure_ok] at hi1
      obtain ⟨s1, hs1, rfl⟩ := hi1
      simp only [mockableTraitItem, gen_bind_ok, gen_pure_ok] at hi2
      obtain ⟨f2, hf2, rfl⟩ := hi2
      refine ⟨k1, k2, .cons ⟨s1, hs1, ?_⟩ k3⟩
      have := mockableTraitMethod_eq name g { f with sig := s1 } .inherited
      rw [hf2] at this
      exact this
    | type t =>
      simp only [substTraitItem] at hi1
      split at hi1
      · rename_i u hu
        simp only [gen_pure_ok] at hi1
        subst hi1
        simp only [mockableTraitItem, tit2iit, gen_bind_ok, gen_pure_ok] at hi2
        obtain ⟨d, rfl, rfl⟩ := hi2
        exact ⟨k1, .cons ⟨rfl, rfl, hu⟩ k2, k3⟩
      · cases hi1
    | other s =>
      simp only [substTraitItem, gen_pure_ok] at hi1
      subst hi1
      simp [mockableTraitItem] at hi2

theorem pointwise_comp {α β γ : Type} {R : α → β → Prop} {S : β → γ → Prop} {T : α → γ → Prop}
    {l : List α} {m : List β} {n : List γ} (h : Pointwise R l m) (k : Pointwise S m n)
    (hT : ∀ a ∈ l, ∀ b c, R a b → S b c → T a c) : Pointwise T l n := by
  induction h generalizing n with
  | nil => cases k; exact .nil
  | cons hr _ ih =>
    cases k with
    | cons hs ks =>
      exact .cons (hT _ List.mem_cons_self _ _ hr hs) (ih ks fun a ha => hT a (List.mem_cons_of_mem _ ha))

theorem pointwise_map_right {α β γ : Type} {R : α → β → Prop} (f : β → γ) {l : List α} {m : List β}
    (h : Pointwise R l m) : Pointwise (fun a c => ∃ b, R a b ∧ c = f b) l (m.map f) := by
  induction h with
  | nil => exact .nil
  | cons h _ ih => exact .cons ⟨_, h, rfl⟩ ih

/-- C65: `#[automock]` on a trait generates a struct `Mock..` of the trait's visibility and with its generics,
and implements one trait for it, the given one.  That `impl` has the trait's constants, with their defaults,
the associated types that were given, and a mock of each method, in order: name, qualifiers, attributes and
receiver are the same, in the types associated types, `Self` and `impl Trait` are replaced, lifetimes are
made explicit (C42, C43, C51, C64).  Provided nothing has to change where the macros do not look. -/
theorem C65_automock_trait_partial (hash : List Args → Nat) (σ : Subst) (t : ItemTrait) (items : List Item)
    (hlts : LtsFirst t.generics.params) (hassoc : ∀ f ∈ traitFns t.items, VisibleAssoc f.sig)
    (hvis : ∀ f ∈ traitFns t.items, Visible (replace (assocReplace (fun i => σ.lookup i) t.ident))
      (selfRewrite ("Mock" ++ t.ident) (paramArgs t.generics.params)) f.sig)
    (h : automockTrait hash σ t = .ok items) :
    (∃ a fields, .struct ⟨a, t.vis, t.generics⟩ ("Mock" ++ t.ident) fields ∈ items) ∧
    implemented items = [⟨false, [.mk t.ident (paramArgs t.generics.params)]⟩] ∧
    ∃ hd fns, .impl hd ("Mock" ++ t.ident) (some ⟨false, [.mk t.ident (paramArgs t.generics.params)]⟩) fns ∈ items ∧
      hd.isUnsafe = t.isUnsafe ∧ hd.generics = t.generics ∧ hd.selfArgs = paramArgs t.generics.params ∧
      Pointwise MocksConst (traitConstants t.items) hd.consts ∧
      Pointwise (MocksType fun i => σ.lookup i) (traitTypeItems t.items) hd.types ∧
      Pointwise (MocksFn (replace (assocReplace (fun i => σ.lookup i) t.ident))
        (selfRewrite ("Mock" ++ t.ident) (paramArgs t.generics.params))) (traitFns t.items) fns := by
  simp only [automockTrait, mockableFromTrait, mockableTrait, substTrait, gen_bind_ok, gen_pure_ok] at h
  obtain ⟨ms, ⟨t1, ⟨its1, h1, rfl⟩, im, ⟨its2, h2, rfl⟩, rfl⟩, h⟩ := h
  simp only [expandStruct, gen_bind_ok] at h
  obtain ⟨mi, hmi, h⟩ := h
  have himp := implemented_items h
  obtain ⟨L⟩ := layout h
  simp only [mockItemStruct, gen_bind_ok, gen_pure_ok, List.mapM_nil, List.mapM_cons] at hmi
  obtain ⟨_, rfl, _, ⟨tr, htr, _, rfl, rfl⟩, rfl⟩ := hmi
  simp only [mockTrait, selfPathOf, selfPathOf.lastOf, List.getLast?_singleton, gen_bind_ok, gen_pure_ok] at htr
  obtain ⟨_, rfl, meths, hmeths, rfl⟩ := htr
  rw [typeArgs_eq hlts] at *
  refine ⟨⟨_, _, L.struct⟩, himp, ?_⟩
  obtain ⟨k1, k2, k3⟩ := mockableTrait_items h1 h2
  refine ⟨_, _, L.traits _ List.mem_cons_self _ List.mem_cons_self, rfl, rfl, rfl, k1, k2, ?_⟩
  refine pointwise_comp k3 (pointwise_map_right _ (traitMethods_pointwise hmeths)) ?_
  rintro f hf f2 c ⟨s1, hs1, hf2⟩ ⟨m, hm, rfl⟩
  obtain ⟨v1, v2⟩ := mockSig_comp (R := selfRewrite ("Mock" ++ t.ident) (paramArgs t.generics.params))
    (hassoc f hf) hs1
  obtain ⟨e1, -, e3, e4⟩ := mockableMethod_ok (v1 (hvis f hf)) hf2
  obtain ⟨n1, n2, n3, n4, -⟩ := methOf_sig hm
  have hsig := mockSig_build hm (v2 _ e4)
  refine ⟨?_, ?_, ?_, ?_, ⟨_, rfl, hsig⟩, ?_⟩
  · exact hsig.name
  · show (if m.trait.isSome then Vis.inherited else _) = _
    rw [n2]; rfl
  · show m.qual = _
    rw [n3, e3]
  · intro c hc
    show c.active (({ mustUse := true } : AttrFormatter).format m.attrs) = _
    rw [n1, e1]
    exact active_plain c _ hc
  · intro hp
    show Without _ _ (({ mustUse := true } : AttrFormatter).format m.attrs)
    rw [n1, e1]
    exact C47_filter_partial { mustUse := true } _ hp

/-! ## Examples -/

/-- `Self`. -/
def tySelf : Ty := .name "Self"

/-- `Self::Key`. -/
def tyKey : Ty := .path false [.of "Self", .of "Key"]

/-- `&self`. -/
def refSelf : FnArg := .receiver (some none) false false (.ref none false tySelf)

/-- `fn get<U>(&self, mut k: Self::Key, v: &dyn Bar) -> Option<Self> where Self: Sized`. -/
def exGet : TraitFn where
  attrs := [.plain [] "cfg" ["unix"]]
  sig := {
    ident := "get"
    generics := { angle := true, params := [.ty { id := "U" }]
                  preds := some [.ty none tySelf [.trait false [] false [.of "Sized"]]] }
    inputs := [refSelf, .typed [] (.ident false true "k" false) tyKey,
      .typed [] (.ident false false "v" false)
        (.ref none false (.traitObject [.trait false [] false [.of "Bar"]]))]
    output := .ty (.path false [.mk "Option" (.angle [.ty tySelf])]) }

/-- `unsafe fn run(mut self: Box<Self>) -> impl Future<Output = &'static u8>`. -/
def exRun : TraitFn where
  qual := { isUnsafe := true }
  sig := {
    ident := "run"
    inputs := [.receiver none true true (.path false [.mk "Box" (.angle [.ty tySelf])])]
    output := .ty (.implTrait [.trait false [] false [.mk "Future" (.angle [.assocTy "Output"
      (.ref (some "static") false (.name "u8"))])]]) }

/-- ```
pub unsafe trait Foo<'a, T: Clone> {
    const N: usize = 3;
    type Key;
    // exGet and exRun
}
``` -/
def exTrait : ItemTrait where
  vis := .pub
  isUnsafe := true
  ident := "Foo"
  generics := { angle := true, params := [.lt ⟨"a", []⟩, .ty { id := "T", bounds := [.trait false [] false [.of "Clone"]] }] }
  items := [.const { id := "N", ty := "usize", dflt := some "3" }, .type { id := "Key" }, .fn exGet, .fn exRun]

/-- `type Key = u32`. -/
def exσ : Subst := [("Key", .name "u32")]

theorem notSelf_of {l : List Leaf} (h : ∀ x ∈ l, ∀ b : Bool, x ≠ .seg "Self" b) : All NotSelf l := h

theorem notAnon_of {l : List Leaf} (h : ∀ x ∈ l, x ≠ .lt "_") : All NotAnon l := h

/-- The hypotheses of C65 hold for it, and it is accepted. -/
example :
    LtsFirst exTrait.generics.params ∧ (∀ f ∈ traitFns exTrait.items, VisibleAssoc f.sig) ∧
    (∀ f ∈ traitFns exTrait.items, Visible (replace (assocReplace (fun i => exσ.lookup i) exTrait.ident))
      (selfRewrite ("Mock" ++ exTrait.ident) (paramArgs exTrait.generics.params)) f.sig) ∧
    ∃ items, automockTrait (fun _ => 7) exσ exTrait = .ok items ∧ items.length = 11 := by
  refine ⟨⟨[_], [_], rfl, by simp, by simp⟩, ?_, ?_, ?_⟩
  · intro f hf
    simp only [traitFns, exTrait, List.filterMap_cons, List.filterMap_nil, List.mem_cons, List.not_mem_nil,
      or_false] at hf
    rcases hf with rfl | rfl
    · refine ⟨?_, ?_⟩
      · intro a p u hu
        simp only [exGet, refSelf, List.mem_cons, reduceCtorEq, FnArg.typed.injEq, List.not_mem_nil, or_false,
          false_or] at hu
        rcases hu with ⟨-, -, rfl⟩ | ⟨-, -, rfl⟩ <;> exact fun _ h => nomatch h
      · intro u hu
        cases hu
        exact fun _ h => nomatch h
    · refine ⟨?_, ?_⟩
      · intro a p u hu
        simp [exRun] at hu
      · intro u hu
        cases hu
        exact fun _ h => nomatch h
  · intro f hf
    simp only [traitFns, exTrait, List.filterMap_cons, List.filterMap_nil, List.mem_cons, List.not_mem_nil,
      or_false] at hf
    rcases hf with rfl | rfl
    · refine ⟨?_, ?_, ?_⟩
      · intro a p u hu
        simp only [exGet, refSelf, List.mem_cons, reduceCtorEq, FnArg.typed.injEq, List.not_mem_nil, or_false,
          false_or] at hu
        rcases hu with ⟨-, -, rfl⟩ | ⟨-, -, rfl⟩
        · exact ⟨notSelf_of (by decide +kernel), by decide +kernel⟩
        · exact ⟨notSelf_of (by decide +kernel), by decide +kernel⟩
      · intro r m u hu
        simp [exGet, refSelf] at hu
      · intro u q hu hq
        cases hu
        cases hq
        exact ⟨notSelf_of (by decide +kernel), notAnon_of (by decide +kernel)⟩
    · refine ⟨?_, ?_, ?_⟩
      · intro a p u hu
        simp [exRun] at hu
      · intro r m u hu
        simp only [exRun, List.mem_cons, FnArg.receiver.injEq, List.not_mem_nil, or_false] at hu
        obtain ⟨-, -, -, rfl⟩ := hu
        exact fun _ h => nomatch h
      · intro u q hu hq
        cases hu
        cases hq with
        | same _ h => exact absurd rfl (h _)
        | boxed _ h =>
          exact absurd ⟨_, _, _, [], _, _, rfl, .inl rfl⟩ (h _ List.mem_cons_self)
        | pinned _ h => exact ⟨notSelf_of (by decide +kernel), notAnon_of (by decide +kernel)⟩
  · have h : ((automockTrait (fun _ => 7) exσ exTrait).toOption.map List.length) = some 11 := by decide +kernel
    cases hi : automockTrait (fun _ => 7) exσ exTrait with
    | error e => rw [hi] at h; cases h
    | ok items => rw [hi] at h; exact ⟨items, rfl, Option.some.inj h⟩

/-- `#[cfg(windows)] trait Foo { fn foo(&self); }`. -/
def exCfgTrait : ItemTrait where
  attrs := [.plain [] "cfg" ["windows"]]
  ident := "Foo"
  items := [.fn { sig := { ident := "foo", inputs := [refSelf] } }]

/-- The name for which there is an `impl Default`. -/
def defaultName : Item → Option Ident
  | .dflt _ n _ => some n
  | _ => none

/-- C65: a `#[cfg]` below `#[automock]` is copied to the struct and the `impl` of the trait, but not to
`impl Default`, `impl Debug` and the methods of the mock: where it removes the trait, what is left of the mock
does not compile. -/
theorem C65_cfg_dangling : ∃ items, automockTrait (fun _ => 7) [] exCfgTrait = .ok items ∧
    (unix.strip items).filterMap structName = [] ∧ (unix.strip items).filterMap defaultName = ["MockFoo"] := by
  have h : ((automockTrait (fun _ => 7) [] exCfgTrait).toOption.map fun l =>
      ((unix.strip l).filterMap structName, (unix.strip l).filterMap defaultName)) =
      some ([], ["MockFoo"]) := by decide +kernel
  cases hi : automockTrait (fun _ => 7) [] exCfgTrait with
  | error e => rw [hi] at h; cases h
  | ok items =>
    rw [hi] at h
    have h := Option.some.inj h
    exact ⟨items, rfl, (Prod.mk.inj h).1, (Prod.mk.inj h).2⟩

end Mockall.Props
