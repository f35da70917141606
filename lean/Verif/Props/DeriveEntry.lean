import Verif.Spec.Entry
import Verif.Props.DeriveMockable
import Verif.Props.DeriveMacros
import Verif.Props.DeriveModule

/-! # C90: the macros as the compiler calls them -/

namespace Mockall.Props

open Derive Spec

/-! ## Only what is looked up matters -/

theorem getPath_congr {σ τ : Subst} (h : ∀ i, σ.lookup i = τ.lookup i) (l : Bool) (s : List Seg) :
    getPath σ l s = getPath τ l s := by
  unfold getPath
  split
  · rw [h]
  · rfl

theorem substQself_congr {σ τ : Subst} (h : ∀ i, σ.lookup i = τ.lookup i) (trait : Ident) (q : Ty) (p : Nat)
    (s : List Seg) : substQself σ trait q p s = substQself τ trait q p s := by
  unfold substQself
  simp only [h]

mutual
theorem substTy_congr {σ τ : Subst} (h : ∀ i, σ.lookup i = τ.lookup i) (trait : Ident) :
    ∀ t : Ty, substTy σ trait t = substTy τ trait t
  | .slice e => by simp only [substTy, substTy_congr h trait e]
  | .array e l => by simp only [substTy, substTy_congr h trait e]
  | .ptr m e => by simp only [substTy, substTy_congr h trait e]
  | .ref l m e => by simp only [substTy, substTy_congr h trait e]
  | .bareFn l i o => by simp only [substTy, substTys_congr h trait i, substRet_congr h trait o]
  | .tuple l => by simp only [substTy, substTys_congr h trait l]
  | .qpath q p _ s => by simp only [substTy, substQself_congr h]
  | .path l s => by simp only [substTy, getPath_congr h, substSegs_congr h trait s]
  | .traitObject b => by simp only [substTy, substBounds_congr h trait b]
  | .implTrait b => by simp only [substTy, substBounds_congr h trait b]
  | .paren e => by simp only [substTy, substTy_congr h trait e]
  | .group e => by simp only [substTy, substTy_congr h trait e]
  | .mac _ => by simp only [substTy]
  | .verbatim _ => by simp only [substTy]
  | .infer => by simp only [substTy]
  | .never => by simp only [substTy]
theorem substRet_congr {σ τ : Subst} (h : ∀ i, σ.lookup i = τ.lookup i) (trait : Ident) :
    ∀ t : Ret, substRet σ trait t = substRet τ trait t
  | .unit => by simp only [substRet]
  | .ty t => by simp only [substRet, substTy_congr h trait t]
theorem substSeg_congr {σ τ : Subst} (h : ∀ i, σ.lookup i = τ.lookup i) (trait : Ident) :
    ∀ t : Seg, substSeg σ trait t = substSeg τ trait t
  | .mk i a => by simp only [substSeg, substArgs_congr h trait a]
theorem substArgs_congr {σ τ : Subst} (h : ∀ i, σ.lookup i = τ.lookup i) (trait : Ident) :
    ∀ t : Args, substArgs σ trait t = substArgs τ trait t
  | .none => by simp only [substArgs]
  | .paren _ _ => by simp only [substArgs]
  | .angle l => by simp only [substArgs, substGArgs_congr h trait l]
theorem substGArg_congr {σ τ : Subst} (h : ∀ i, σ.lookup i = τ.lookup i) (trait : Ident) :
    ∀ t : GArg, substGArg σ trait t = substGArg τ trait t
  | .lt l => by simp only [substGArg]
  | .ty t => by simp only [substGArg, substTy_congr h trait t]
  | .assocConst i e => by simp only [substGArg]
  | .assocTy i t => by simp only [substGArg, substTy_congr h trait t]
  | .const e => by simp only [substGArg]
  | .constraint i b => by simp only [substGArg]
theorem substBound_congr {σ τ : Subst} (h : ∀ i, σ.lookup i = τ.lookup i) (trait : Ident) :
    ∀ t : Bound, substBound σ trait t = substBound τ trait t
  | .trait m l c s => by simp only [substBound, getPath_congr h, substSegs_congr h trait s]
  | .lt l => by simp only [substBound]
  | .other s => by simp only [substBound]
theorem substTys_congr {σ τ : Subst} (h : ∀ i, σ.lookup i = τ.lookup i) (trait : Ident) :
    ∀ t : List Ty, substTys σ trait t = substTys τ trait t
  | [] => by simp only [substTys]
  | t :: l => by simp only [substTys, substTy_congr h trait t, substTys_congr h trait l]
theorem substSegs_congr {σ τ : Subst} (h : ∀ i, σ.lookup i = τ.lookup i) (trait : Ident) :
    ∀ t : List Seg, substSegs σ trait t = substSegs τ trait t
  | [] => by simp only [substSegs]
  | t :: l => by simp only [substSegs, substSeg_congr h trait t, substSegs_congr h trait l]
theorem substGArgs_congr {σ τ : Subst} (h : ∀ i, σ.lookup i = τ.lookup i) (trait : Ident) :
    ∀ t : List GArg, substGArgs σ trait t = substGArgs τ trait t
  | [] => by simp only [substGArgs]
  | t :: l => by simp only [substGArgs, substGArg_congr h trait t, substGArgs_congr h trait l]
theorem substBounds_congr {σ τ : Subst} (h : ∀ i, σ.lookup i = τ.lookup i) (trait : Ident) :
    ∀ t : List Bound, substBounds σ trait t = substBounds τ trait t
  | [] => by simp only [substBounds]
  | t :: l => by simp only [substBounds, substBound_congr h trait t, substBounds_congr h trait l]
end

theorem substTraitItem_congr {σ τ : Subst} (h : ∀ i, σ.lookup i = τ.lookup i) (trait : Ident) :
    substTraitItem σ trait = substTraitItem τ trait := by
  have ha : substArg σ trait = substArg τ trait := by
    funext a
    unfold substArg
    split
    · rw [substTy_congr h]
    · rfl
  have hs : substSig σ trait = substSig τ trait := by
    funext s
    simp only [substSig, ha, substRet_congr h]
  funext i
  unfold substTraitItem
  split
  · rw [h]
  · rw [hs]
  · rfl

theorem automockTrait_congr (hash : List Args → Nat) {σ τ : Subst} (h : ∀ i, σ.lookup i = τ.lookup i) (t : ItemTrait) :
    automockTrait hash σ t = automockTrait hash τ t := by
  simp only [automockTrait, mockableFromTrait, substTrait, substTraitItem_congr h]

theorem mockIt_congr (hash : List Args → Nat) {σ τ : Subst} (h : ∀ i, σ.lookup i = τ.lookup i) (i : InItem) :
    mockIt hash σ i = mockIt hash τ i := by
  cases i with
  | trait t => simp only [mockIt, automockTrait_congr hash h]
  | _ => rfl

/-! ## The attributes -/

theorem lookup_insert (σ : Subst) (i j : Ident) (t : Ty) :
    (σ.insert i t).lookup j = if j = i then some t else σ.lookup j := by
  have hf : ∀ l : Subst, j ≠ i → (l.filter fun e => e.1 ≠ i).lookup j = l.lookup j := by
    intro l hj
    induction l with
    | nil => rfl
    | cons e l ih =>
      obtain ⟨k, u⟩ := e
      by_cases hk : k = i
      · subst hk
        rw [List.filter_cons_of_neg (by simp), ih, List.lookup_cons]
        have : (j == k) = false := by simp [hj]
        rw [this]
      · rw [List.filter_cons_of_pos (by simp [hk]), List.lookup_cons, List.lookup_cons, ih]
  unfold Subst.insert
  rw [List.lookup_cons]
  by_cases hj : j = i
  · subst hj; simp
  · have : (j == i) = false := by simp [hj]
    rw [this, if_neg hj]
    exact hf σ hj

theorem lastType_cons (a : TypeAttr) (l : List TypeAttr) (i : Ident) :
    lastType (a :: l) i = if (∃ b ∈ l, b.id = i) then lastType l i else if a.id = i then a.dflt else none := by
  unfold lastType
  by_cases hb : ∃ b ∈ l, b.id = i
  · rw [if_pos hb]
    obtain ⟨b, hb, e⟩ := hb
    have hm : b ∈ l.filter fun a => a.id = i := by simp [hb, e]
    by_cases ha : a.id = i
    · rw [List.filter_cons_of_pos (by simp [ha])]
      rw [List.getLast?_cons]
      cases hg : (l.filter fun a => a.id = i).getLast? with
      | none => rw [List.getLast?_eq_none_iff] at hg; rw [hg] at hm; cases hm
      | some c => simp
    · rw [List.filter_cons_of_neg (by simp [ha])]
  · rw [if_neg hb]
    have hn : (l.filter fun a => a.id = i) = [] := by
      rw [List.filter_eq_nil_iff]
      intro b hb' e
      exact hb ⟨b, hb', by simpa using e⟩
    by_cases ha : a.id = i
    · rw [List.filter_cons_of_pos (by simp [ha]), hn, if_pos ha]; rfl
    · rw [List.filter_cons_of_neg (by simp [ha]), hn, if_neg ha]; rfl

theorem collectAttrs_lookup : ∀ (l : List TypeAttr) (σ τ : Subst), collectAttrs σ l = .ok τ →
    (∀ a ∈ l, a.dflt.isSome) ∧ ∀ i, τ.lookup i = if (∃ b ∈ l, b.id = i) then lastType l i else σ.lookup i
  | [], σ, τ, h => by
    simp only [collectAttrs, gen_pure_ok] at h
    subst h
    simp
  | a :: l, σ, τ, h => by
    simp only [collectAttrs] at h
    split at h
    · rename_i t ht
      obtain ⟨h1, h2⟩ := collectAttrs_lookup l _ τ h
      refine ⟨?_, ?_⟩
      · intro b hb
        rcases List.mem_cons.mp hb with rfl | hb
        · simp [ht]
        · exact h1 b hb
      · intro i
        rw [h2, lookup_insert, lastType_cons, ht]
        by_cases hb : ∃ b ∈ l, b.id = i
        · have : ∃ b ∈ a :: l, b.id = i := by
            obtain ⟨b, hb, e⟩ := hb
            exact ⟨b, by simp [hb], e⟩
          rw [if_pos hb, if_pos this, if_pos hb]
        · rw [if_neg hb]
          by_cases ha : a.id = i
          · have : ∃ b ∈ a :: l, b.id = i := ⟨a, by simp, ha⟩
            rw [if_pos this, if_neg hb, if_pos ha, if_pos ha.symm]
          · have : ¬ ∃ b ∈ a :: l, b.id = i := by
              rintro ⟨b, hb', e⟩
              rcases List.mem_cons.mp hb' with rfl | hb'
              · exact ha e
              · exact hb ⟨b, hb', e⟩
            rw [if_neg this, if_neg (fun e => ha e.symm)]
    · cases h

theorem collectAttrs_ok : ∀ (l : List TypeAttr) (σ : Subst), (∀ a ∈ l, a.dflt.isSome) → ∃ τ, collectAttrs σ l = .ok τ
  | [], σ, _ => ⟨σ, rfl⟩
  | a :: l, σ, h => by
    obtain ⟨t, ht⟩ := Option.isSome_iff_exists.mp (h a (by simp))
    obtain ⟨τ, hτ⟩ := collectAttrs_ok l (σ.insert a.id t) (fun b hb => h b (by simp [hb]))
    exact ⟨τ, by simp only [collectAttrs, ht]; exact hτ⟩

theorem collected {l : List TypeAttr} {τ : Subst} (h : collectAttrs [] l = .ok τ) (i : Ident) :
    τ.lookup i = lastType l i := by
  rw [(collectAttrs_lookup l [] τ h).2]
  by_cases hb : ∃ b ∈ l, b.id = i
  · rw [if_pos hb]
  · rw [if_neg hb]
    have hn : (l.filter fun a => a.id = i) = [] := by
      rw [List.filter_eq_nil_iff]
      intro b hb' e
      exact hb ⟨b, hb', by simpa using e⟩
    simp [lastType, hn]

/-! ## The properties -/

section
variable {T : Type} (hash : List Args → Nat) (parseAttrs : T → Except String (List TypeAttr))
  (parseItem : T → Except String InItem)

/-- **C90**, the item is kept.  If the macro does not fail and the parser has nothing to complain about, the compiler
gets the item, exactly as it was written, and after it the mock, and nothing else.  Otherwise it gets the parser's
message instead of both. -/
theorem C90_keeps (attrs input : T) (out : List (Piece T))
    (h : automock hash parseAttrs parseItem attrs input = .ok out) :
    (∃ c, out = [.given input, .mock c]) ∨
    (∃ e, out = [.error e] ∧ (parseAttrs attrs = .error e ∨ parseItem input = .error e)) := by
  unfold automock at h
  split at h
  · rename_i e he
    simp only [gen_pure_ok] at h
    exact .inr ⟨e, h.symm, .inl he⟩
  · simp only [gen_bind_ok] at h
    obtain ⟨σ, _, h⟩ := h
    split at h
    · rename_i e he
      simp only [gen_pure_ok] at h
      exact .inr ⟨e, h.symm, .inr he⟩
    · simp only [gen_bind_ok, gen_pure_ok] at h
      obtain ⟨c, _, h⟩ := h
      exact .inl ⟨c, h.symm⟩

/-- **C90**, what is mocked.  The mock of a trait is the mock of that trait with the types that were given last; the
mocks of an `impl` and of a module do not depend on the attributes of the macro. -/
theorem C90_mock (attrs input : T) (l : List TypeAttr) (item : InItem) (out : List (Piece T))
    (ha : parseAttrs attrs = .ok l) (hi : parseItem input = .ok item)
    (h : automock hash parseAttrs parseItem attrs input = .ok out) :
    (∀ a ∈ l, a.dflt.isSome) ∧ complaints out = [] ∧ handedOn out = [input] ∧
    ((∃ t items, item = .trait t ∧ generated out = [.struct items] ∧
        ∀ σ : Subst, (∀ i, σ.lookup i = lastType l i) → automockTrait hash σ t = .ok items) ∨
     (∃ i items, item = .impl i ∧ generated out = [.struct items] ∧ automockImpl hash i = .ok items) ∨
     (∃ m o, item = .module m ∧ generated out = [.module o] ∧ expandModule m = .ok o)) := by
  simp only [automock, ha, hi, gen_bind_ok, gen_pure_ok] at h
  obtain ⟨σ, hσ, c, hc, rfl⟩ := h
  refine ⟨(collectAttrs_lookup l [] σ hσ).1, rfl, rfl, ?_⟩
  cases item with
  | trait t =>
    simp only [mockIt, gen_bind_ok, gen_pure_ok] at hc
    obtain ⟨items, hc, rfl⟩ := hc
    refine .inl ⟨t, items, rfl, rfl, fun τ hτ => ?_⟩
    rw [← hc]
    exact automockTrait_congr hash (fun i => by rw [hτ, collected hσ]) t
  | impl i =>
    simp only [mockIt, gen_bind_ok, gen_pure_ok] at hc
    obtain ⟨items, hc, rfl⟩ := hc
    exact .inr (.inl ⟨i, items, rfl, rfl, hc⟩)
  | module m =>
    simp only [mockIt, gen_bind_ok, gen_pure_ok] at hc
    obtain ⟨o, hc, rfl⟩ := hc
    exact .inr (.inr ⟨m, o, rfl, rfl, hc⟩)
  | other s => cases hc

/-- **C90**, order and repetition.  Lists of attributes that say the same of each name, the last type counting, do the
same. -/
theorem C90_order (attrs attrs' input : T) (l l' : List TypeAttr)
    (ha : parseAttrs attrs = .ok l) (ha' : parseAttrs attrs' = .ok l')
    (hv : ∀ a ∈ l, a.dflt.isSome) (hv' : ∀ a ∈ l', a.dflt.isSome) (hsame : ∀ i, lastType l i = lastType l' i) :
    automock hash parseAttrs parseItem attrs input = automock hash parseAttrs parseItem attrs' input := by
  obtain ⟨σ, hσ⟩ := collectAttrs_ok l [] hv
  obtain ⟨τ, hτ⟩ := collectAttrs_ok l' [] hv'
  have hl : ∀ i, σ.lookup i = τ.lookup i := fun i => by rw [collected hσ, collected hτ, hsame]
  simp only [automock, ha, ha', hσ, hτ]
  change (match parseItem input with | .error e => _ | .ok item => _) = (match parseItem input with | .error e => _ | .ok item => _)
  split
  · rfl
  · rw [mockIt_congr hash hl]

/-- **C90**, the types.  The mock of a trait implements it with the types that were given last for its associated
types, in their order. -/
theorem C90_types (attrs input : T) (l : List TypeAttr) (t : ItemTrait) (out : List (Piece T))
    (ha : parseAttrs attrs = .ok l) (hi : parseItem input = .ok (.trait t))
    (h : automock hash parseAttrs parseItem attrs input = .ok out) :
    ∃ items hd p fns, generated out = [.struct items] ∧ .impl hd ("Mock" ++ t.ident) (some p) fns ∈ items ∧
      Pointwise (MocksType (lastType l)) (traitTypeItems t.items) hd.types := by
  obtain ⟨hv, -, -, h2⟩ := C90_mock hash parseAttrs parseItem attrs input l _ out ha hi h
  rcases h2 with ⟨t', items, e, hg, hx⟩ | ⟨_, _, e, _⟩ | ⟨_, _, e, _⟩
  · cases e
    obtain ⟨σ, hσ⟩ := collectAttrs_ok l [] hv
    have hy := hx σ (collected hσ)
    simp only [automockTrait, mockableFromTrait, mockableTrait, substTrait, gen_bind_ok, gen_pure_ok] at hy
    obtain ⟨ms, ⟨t1, ⟨its1, h1, rfl⟩, im, ⟨its2, h2, rfl⟩, rfl⟩, hy⟩ := hy
    simp only [expandStruct, gen_bind_ok] at hy
    obtain ⟨mi, hmi, hy⟩ := hy
    obtain ⟨L⟩ := layout hy
    simp only [mockItemStruct, gen_bind_ok, gen_pure_ok, List.mapM_nil, List.mapM_cons] at hmi
    obtain ⟨_, rfl, _, ⟨tr, htr, _, rfl, rfl⟩, rfl⟩ := hmi
    simp only [mockTrait, selfPathOf, selfPathOf.lastOf, List.getLast?_singleton, gen_bind_ok, gen_pure_ok] at htr
    obtain ⟨_, rfl, meths, hmeths, rfl⟩ := htr
    obtain ⟨-, k2, -⟩ := mockableTrait_items h1 h2
    refine ⟨_, _, _, _, hg, L.traits _ List.mem_cons_self _ List.mem_cons_self, ?_⟩
    rw [show (fun i => σ.lookup i) = lastType l from funext (collected hσ)] at k2
    exact k2
  · cases e
  · cases e

/-- **C90**, misuse is refused.  The macro fails if a type attribute has no type, or if the item is neither a trait, an
`impl` nor a module with its contents; the associated types of a trait all have to be given. -/
theorem C90_refuses (attrs input : T) (l : List TypeAttr) (item : InItem)
    (ha : parseAttrs attrs = .ok l) (hi : parseItem input = .ok item)
    (hbad : (∃ a ∈ l, a.dflt = none) ∨ (∃ s, item = .other s) ∨ (∃ m, item = .module m ∧ m.content = none) ∨
      ∃ t ty, item = .trait t ∧ .type ty ∈ t.items ∧ lastType l ty.id = none) :
    ∃ e, automock hash parseAttrs parseItem attrs input = .error e := by
  cases h : automock hash parseAttrs parseItem attrs input with
  | error e => exact ⟨e, rfl⟩
  | ok out =>
    exfalso
    obtain ⟨h1, -, -, h2⟩ := C90_mock hash parseAttrs parseItem attrs input l item out ha hi h
    rcases hbad with ⟨a, hal, hn⟩ | ⟨s, rfl⟩ | ⟨m, rfl, hm⟩ | ⟨t, ty, rfl, hty, hl⟩
    · have := h1 a hal
      rw [hn] at this; cases this
    · rcases h2 with ⟨_, _, e, _⟩ | ⟨_, _, e, _⟩ | ⟨_, _, e, _⟩ <;> cases e
    · rcases h2 with ⟨_, _, e, _⟩ | ⟨_, _, e, _⟩ | ⟨m', o, e, _, ho⟩
      · cases e
      · cases e
      · cases e
        simp [expandModule, mockableModule, hm] at ho
    · rcases h2 with ⟨t', items, e, _, hx⟩ | ⟨_, _, e, _⟩ | ⟨_, _, e, _⟩
      · cases e
        obtain ⟨σ, hσ⟩ := collectAttrs_ok l [] h1
        have hy := hx σ (collected hσ)
        simp only [automockTrait, mockableFromTrait, substTrait, gen_bind_ok, gen_pure_ok] at hy
        obtain ⟨_, ⟨_, ⟨its, hm, rfl⟩, _⟩, _⟩ := hy
        obtain ⟨y, _, hy⟩ := mapM_mem hm hty
        simp only [substTraitItem, collected hσ, hl] at hy
        cases hy
      · cases e
      · cases e

end

/-- **C90**, `mock!` gives the mock alone, and `#[concretize]` does nothing to its function. -/
theorem C90_others {T : Type} (hash : List Args → Nat) (parse : T → Except String Bang) (attrs input : T)
    (out : List (Piece T)) :
    (mock hash parse input = .ok out → (∃ b items, parse input = .ok b ∧ mockBang hash b = .ok items ∧
      out = [.mock (.struct items)]) ∨ ∃ e, parse input = .error e ∧ out = [.error e]) ∧
    concretizeMacro attrs input = [.given input] := by
  refine ⟨fun h => ?_, rfl⟩
  unfold mock at h
  split at h
  · rename_i e he
    simp only [gen_pure_ok] at h
    exact .inr ⟨e, he, h.symm⟩
  · rename_i b hb
    simp only [gen_bind_ok, gen_pure_ok] at h
    obtain ⟨items, hi, h⟩ := h
    exact .inl ⟨b, items, hb, hi, h.symm⟩

/-! ## Examples -/

/-- Tokens that are already parsed. -/
inductive ExTokens
  | attrs (l : List TypeAttr)
  | item (i : InItem)

/-- The parser of attributes. -/
def readAttrs : ExTokens → Except String (List TypeAttr)
  | .attrs l => .ok l
  | _ => .error "expected `type`"

/-- The parser of items. -/
def readItem : ExTokens → Except String InItem
  | .item i => .ok i
  | _ => .error "expected item"

/-- `type Key = u8; type Other = u16; type Key = u32;`. -/
def exTypes : List TypeAttr := [⟨"Key", some (.name "u8")⟩, ⟨"Other", some (.name "u16")⟩, ⟨"Key", some (.name "u32")⟩]

/-- The types in the `impl`s of traits. -/
def implTypes (l : List Item) : List (List TypeItem) := l.filterMap fun | .impl hd _ (some _) _ => some hd.types | _ => none

/-- The macro succeeds, and the last type given for `Key` is used. -/
example : ∃ out, automock (fun _ => 7) readAttrs readItem (.attrs exTypes) (.item (.trait exTrait)) = .ok out ∧
    out.length = 2 ∧
    ((generated out).map fun | .struct l => (implTypes l).map (·.map fun t => (t.id, t.ty)) | _ => []) =
      [[[("Key", .name "u32")]]] := by
  obtain ⟨out, h, e⟩ := yields (x := automock (fun _ => 7) readAttrs readItem (.attrs exTypes) (.item (.trait exTrait)))
    (f := fun out => (out.length, (generated out).map fun | .struct l => (implTypes l).map (·.map fun t => (t.id, t.ty)) | _ => []))
    (b := (2, [[[("Key", .name "u32")]]])) (by decide +kernel)
  exact ⟨out, h, (Prod.mk.inj e).1, (Prod.mk.inj e).2⟩

/-- Without the repetition and in another order it is the same. -/
example : automock (fun _ => 7) readAttrs readItem (.attrs exTypes) (.item (.trait exTrait)) =
    automock (fun _ => 7) readAttrs readItem (.attrs [exTypes[2], exTypes[1]]) (.item (.trait exTrait)) := by
  refine C90_order _ _ _ _ _ _ _ _ rfl rfl (by decide) (by decide) ?_
  intro i
  simp only [lastType, exTypes, List.getElem_cons_zero, List.getElem_cons_succ]
  by_cases h1 : "Key" = i
  · subst h1; rfl
  · by_cases h2 : "Other" = i
    · subst h2; rfl
    · simp [h1, h2]

/-- Refused: no type, no value for `Key`, a function, a module in another file. -/
example (l : List TypeAttr) (s : String) (i : Ident) :
    (∃ e, automock (fun _ => 7) readAttrs readItem (.attrs (⟨"Key", none⟩ :: l)) (.item (.trait exTrait)) = .error e) ∧
    (∃ e, automock (fun _ => 7) readAttrs readItem (.attrs []) (.item (.trait exTrait)) = .error e) ∧
    (∃ e, automock (fun _ => 7) readAttrs readItem (.attrs []) (.item (.other s)) = .error e) ∧
    (∃ e, automock (fun _ => 7) readAttrs readItem (.attrs []) (.item (.module { ident := i, content := none })) =
      .error e) :=
  ⟨C90_refuses _ _ _ _ _ _ _ rfl rfl (.inl ⟨⟨"Key", none⟩, List.mem_cons_self, rfl⟩),
   C90_refuses _ _ _ _ _ _ _ rfl rfl (.inr (.inr (.inr ⟨exTrait, _, rfl, List.mem_cons_of_mem _ List.mem_cons_self, rfl⟩))),
   C90_refuses _ _ _ _ _ _ _ rfl rfl (.inr (.inl ⟨s, rfl⟩)),
   C90_refuses _ _ _ _ _ _ _ rfl rfl (.inr (.inr (.inl ⟨_, rfl, rfl⟩)))⟩

/-- What the parser does not understand is reported, and the item is gone. -/
example : automock (fun _ => 7) readAttrs readItem (.item (.other "x")) (.item (.trait exTrait)) =
    .ok [.error "expected `type`"] := rfl

end Mockall.Props
