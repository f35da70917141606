import Verif.Spec.Relay
import Verif.Props.DeriveBuild

/-! # Arguments reach predicates and closures (C76) -/

namespace Mockall.Props

open Derive Spec

variable {V : Type}

/-! ## Scopes -/

/-- The four ways to pass on a variable. -/
inductive Wrap
  | id
  | box
  | ref (m : Bool)
  | refs

/-- The expression. -/
def Wrap.ex (w : Wrap) (x : Ident) : Ex :=
  match w with
  | .id => .var x
  | .box => .boxNew (.var x)
  | .ref m => .ref m (.var x)
  | .refs => .refs (.var x)

/-- Its value. -/
def Wrap.on (w : Wrap) (t : Thing V) : Thing V :=
  match w with
  | .id => t
  | .box => .box t
  | .ref m => .ref m t
  | .refs => .refs t

theorem Wrap.eval (w : Wrap) (ρ : Scope V) (x : Ident) : (w.ex x).eval ρ = (ρ.lookup x).map w.on := by
  cases w <;> simp only [Wrap.ex, Ex.eval, Wrap.on] <;> cases ρ.lookup x <;> rfl

/-- The wrapping of an expression of `call_exprs`. -/
def callWrap : CallArg → Wrap
  | .boxed _ => .box
  | .plain _ => .id
  | .ref m _ => .ref m
  | .slice _ _ => .refs

theorem callWrap_on (c : CallArg) (t : Thing V) : (callWrap c).on t = handed c t := by cases c <;> rfl

/-- The wrapping of an expression of `predexprs`. -/
def predWrap (a : BArg) : Wrap := if a.byRef then .ref false else .id

theorem predWrap_on (a : BArg) (t : Thing V) : (predWrap a).on t = looked a t := by
  unfold predWrap looked
  cases a.byRef <;> rfl

theorem lookup_mem {x : Ident} {t : Thing V} : ∀ {l : Scope V}, (l.map Prod.fst).Nodup → (x, t) ∈ l →
    l.lookup x = some t
  | [], _, h => by cases h
  | (y, s) :: l, hn, h => by
    simp only [List.map_cons, List.nodup_cons] at hn
    rcases List.mem_cons.1 h with h | h
    · cases h; simp [List.lookup]
    · have : x ≠ y := fun e => hn.1 (e ▸ List.mem_map.2 ⟨_, h, rfl⟩)
      simp only [List.lookup, beq_eq_false_iff_ne.2 this, lookup_mem hn.2 h]

theorem lookup_none {x : Ident} : ∀ {l : Scope V}, x ∉ l.map Prod.fst → l.lookup x = none
  | [], _ => rfl
  | (y, s) :: l, h => by
    simp only [List.map_cons, List.mem_cons, not_or] at h
    simp only [List.lookup, beq_eq_false_iff_ne.2 h.1, lookup_none h.2]

theorem lookup_append {x : Ident} : ∀ {l m : Scope V},
    (l ++ m).lookup x = (l.lookup x).or (m.lookup x)
  | [], m => rfl
  | (y, s) :: l, m => by
    simp only [List.cons_append, List.lookup]
    split
    · rfl
    · exact lookup_append

theorem map_fst_zip : ∀ {l : List Ident} {m : List (Thing V)}, m.length = l.length → (l.zip m).map Prod.fst = l
  | [], [], _ => rfl
  | x :: l, t :: m, h => by simp [map_fst_zip (Nat.succ.inj h)]

/-- A name that no variable has is the parameter. -/
theorem scope_param {r : Relay} {args : List (Thing V)} (hl : args.length = r.params.length)
    (hn : r.params.Nodup) {x : Ident} {t : Thing V} (hx : (x, t) ∈ r.params.zip args)
    (hloc : ∀ y ∈ r.locals, y.1 ≠ x) : (r.scope args).lookup x = some t := by
  unfold Relay.scope
  rw [lookup_append, lookup_none, Option.none_or]
  · refine lookup_mem ?_ (List.mem_reverse.2 hx)
    rw [List.map_reverse, map_fst_zip hl]
    exact List.pairwise_reverse.2 (hn.imp fun h => h.symm)
  · simp only [List.map_reverse, List.mem_reverse, List.map_map, List.mem_map, Function.comp, not_exists, not_and]
    exact fun y hy e => hloc y hy e

/-- A name that some variable has is that variable. -/
theorem scope_local {r : Relay} {args : List (Thing V)} {x : Ident} (hloc : ∃ y ∈ r.locals, y.1 = x) :
    ∃ i, (r.scope args).lookup x = some (.internal i) := by
  unfold Relay.scope
  rw [lookup_append]
  have : ∀ l : List (Ident × Internal), (∃ y ∈ l, y.1 = x) →
      ∃ i, (l.map fun y => (y.1, Thing.internal (V := V) y.2)).lookup x = some (.internal i) := by
    intro l
    induction l with
    | nil => rintro ⟨_, h, _⟩; cases h
    | cons y l ih =>
      rintro ⟨z, hz, e⟩
      simp only [List.map_cons, List.lookup]
      split
      · exact ⟨_, rfl⟩
      · rename_i hne
        rcases List.mem_cons.1 hz with rfl | hz
        · subst e; simp at hne
        · exact ih ⟨z, hz, e⟩
  rw [← List.map_reverse]
  obtain ⟨i, hi⟩ := this r.locals.reverse (by simpa using hloc)
  exact ⟨i, by rw [hi]; rfl⟩

theorem mapM_wraps {ρ : Scope V} : ∀ {ws : List Wrap} {xs : List Ident} {ts : List (Thing V)},
    ws.length = xs.length → ts.length = xs.length → (∀ p ∈ xs.zip ts, ρ.lookup p.1 = some p.2) →
    (List.zipWith Wrap.ex ws xs).mapM (Ex.eval ρ) = some (List.zipWith Wrap.on ws ts)
  | [], [], [], _, _, _ => rfl
  | w :: ws, x :: xs, t :: ts, h1, h2, h => by
    have h0 := h (x, t) (by simp)
    have ih := mapM_wraps (ρ := ρ) (Nat.succ.inj h1) (Nat.succ.inj h2) fun p hp => h p (by simp [hp])
    simp only [List.zipWith_cons_cons, List.mapM_cons, Wrap.eval, h0, Option.map_some, ih]
    rfl

/-- A function whose variables have other names than the arguments passes them on as its expressions say. -/
theorem run_wraps {names : List Ident} {locals : List (Ident × Internal)} {es : List Ex} {ws : List Wrap}
    (he : es = List.zipWith Wrap.ex ws names) (hw : ws.length = names.length) (hn : names.Nodup)
    (hloc : ∀ y ∈ locals, y.1 ∉ names) {ts : List (Thing V)} (ht : ts.length = names.length) :
    (Relay.mk names locals es).run ts = some (List.zipWith Wrap.on ws ts) := by
  subst he
  unfold Relay.run
  rw [if_pos ht]
  refine mapM_wraps hw ht fun p hp => ?_
  refine scope_param (r := ⟨names, locals, _⟩) ht hn hp fun y hy e => hloc y hy ?_
  rw [e]
  exact (List.of_mem_zip hp).1

theorem zipWith_id {ws : List Wrap} : ∀ {ts : List (Thing V)}, ws = ts.map (fun _ => .id) →
    List.zipWith Wrap.on ws ts = ts
  | [], h => by subst h; rfl
  | t :: ts, h => by
    subst h
    simp only [List.map_cons, List.zipWith_cons_cons, Wrap.on]
    rw [zipWith_id rfl]

theorem vars_eq : ∀ names : List Ident, names.map Ex.var = List.zipWith Wrap.ex (names.map fun _ => .id) names
  | [] => rfl
  | x :: l => by simp only [List.map_cons, List.zipWith_cons_cons, vars_eq l]; rfl

theorem refs_eq : ∀ names : List Ident, (names.map fun x => Ex.ref false (.var x)) =
    List.zipWith Wrap.ex (names.map fun _ => .ref false) names
  | [] => rfl
  | x :: l => by simp only [List.map_cons, List.zipWith_cons_cons, refs_eq l]; rfl

theorem zipWith_ref : ∀ {names : List Ident} {ts : List (Thing V)}, ts.length = names.length →
    List.zipWith Wrap.on (names.map fun _ => .ref false) ts = ts.map (.ref false)
  | [], [], _ => rfl
  | _ :: l, t :: ts, h => by
    simp only [List.map_cons, List.zipWith_cons_cons, zipWith_ref (Nat.succ.inj h)]; rfl

/-! ## What `build` gives -/

/-- A plain binding. -/
abbrev bindPat (i : Ident) : Pat := .ident false false i false

/-- The pattern in an expression of `call_exprs`. -/
def callPat : CallArg → Pat
  | .boxed p => p
  | .plain p => p
  | .ref _ p => p
  | .slice p _ => p

theorem demutifyPat_bind {p p' : Pat} (h : demutifyPat p = .ok p') : ∃ m i, p = .ident false m i false ∧
    p' = bindPat i := by
  cases p with
  | wild => simp [demutifyPat] at h
  | other => simp [demutifyPat] at h
  | ident r m i s =>
    simp only [demutifyPat] at h
    split at h
    · simp at h
    · split at h
      · simp at h
      · rename_i h1 h2
        simp only [gen_pure_ok] at h
        subst h
        simp only [Bool.not_eq_true] at h1 h2
        subst h1 h2
        exact ⟨m, i, rfl, rfl⟩

/-- The inputs after `declosurefy` or `concretize_args`, and the expressions, name by name. -/
structure Named (names : List Ident) (ins : List FnArg) (calls : List (Option CallArg)) (sig : List FnArg) :
    Prop where
  ins : ∃ l : List (Ident × Ty), l.map Prod.fst = names ∧
    (ins.filterMap fun | .typed _ p t => some (p, t) | _ => none) = l.map fun x => (bindPat x.1, x.2)
  calls : (∀ x ∈ names, x ≠ "self") → (calls.filterMap _root_.id).map callPat = names.map bindPat
  sig : argNames sig = names ∧ sig.flatMap (fun | .typed _ p _ => p.names | .receiver _ _ _ _ => []) = names

theorem named {f : FnArg → Gen FnArg} {c : FnArg → Gen (Option CallArg)} {g : FnArg → Gen FnArg}
    (hf : ∀ r m k t a, f (.receiver r m k t) = .ok a → ∃ r m k t, a = .receiver r m k t)
    (hf' : ∀ a p t b, f (.typed a p t) = .ok b → ∃ m i t', p = .ident false m i false ∧
      b = .typed [] (bindPat i) t')
    (hc : ∀ r m k t a, c (.receiver r m k t) = .ok a → a = none)
    (hc' : ∀ a m i t b, c (.typed a (.ident false m i false) t) = .ok b → i ≠ "self" →
      ∃ x, b = some x ∧ callPat x = bindPat i)
    (hg : ∀ r m k t a, g (.receiver r m k t) = .ok a → ∃ r m k t, a = .receiver r m k t)
    (hg' : ∀ a m i t b, g (.typed a (.ident false m i false) t) = .ok b →
      ∃ a' m' t', b = .typed a' (.ident false m' i false) t') :
    ∀ {l ins : List FnArg} {calls : List (Option CallArg)} {sig : List FnArg}, l.mapM f = .ok ins →
      l.mapM c = .ok calls → l.mapM g = .ok sig → Named (argNames l) ins calls sig
  | [], ins, calls, sig, h1, h2, h3 => by
    simp only [List.mapM_nil, gen_pure_ok] at h1 h2 h3
    subst h1 h2 h3
    exact ⟨⟨[], rfl, rfl⟩, fun _ => rfl, rfl, rfl⟩
  | a :: l, ins, calls, sig, h1, h2, h3 => by
    simp only [List.mapM_cons, gen_bind_ok, gen_pure_ok] at h1 h2 h3
    obtain ⟨a1, e1, l1, h1, rfl⟩ := h1
    obtain ⟨a2, e2, l2, h2, rfl⟩ := h2
    obtain ⟨a3, e3, l3, h3, rfl⟩ := h3
    have ih := named hf hf' hc hc' hg hg' h1 h2 h3
    cases a with
    | receiver r m k t =>
      obtain ⟨_, _, _, _, rfl⟩ := hf _ _ _ _ _ e1
      obtain rfl := hc _ _ _ _ _ e2
      obtain ⟨_, _, _, _, rfl⟩ := hg _ _ _ _ _ e3
      obtain ⟨L, k1, k2⟩ := ih.ins
      refine ⟨⟨L, k1, ?_⟩, ?_, ?_, ?_⟩
      · simpa using k2
      · simpa [argNames] using ih.calls
      · simpa [argNames] using ih.sig.1
      · simpa [argNames] using ih.sig.2
    | typed at_ p t =>
      obtain ⟨m, i, t', rfl, rfl⟩ := hf' _ _ _ _ e1
      obtain ⟨at', m', t'', rfl⟩ := hg' _ _ _ _ _ e3
      obtain ⟨L, k1, k2⟩ := ih.ins
      refine ⟨⟨(i, t') :: L, by simp [argNames, k1], ?_⟩, ?_, ?_, ?_⟩
      · simpa using k2
      · intro hs
        simp only [argNames, List.mem_cons, forall_eq_or_imp] at hs
        obtain ⟨x, rfl, hx⟩ := hc' _ _ _ _ _ e2 hs.1
        simp [argNames, hx, ih.calls hs.2]
      · simp [argNames, ih.sig.1]
      · have := ih.sig.2
        simp only [List.flatMap_cons, argNames, this]
        rfl

theorem mapM_pure_ok : ∀ l : List FnArg, l.mapM (fun a => (pure a : Gen FnArg)) = .ok l
  | [] => rfl
  | a :: l => by
    simp only [List.mapM_cons, gen_bind_ok, gen_pure_ok]
    exact ⟨a, rfl, l, mapM_pure_ok l, rfl⟩

theorem concretizeArg_receiver {hm : ConcreteMap} {r m k t} {a : FnArg}
    (h : concretizeArg hm (.receiver r m k t) = .ok a) : a = .receiver r m k t := by
  simp only [concretizeArg, gen_pure_ok] at h
  exact h.symm

theorem prepare_named {b : Builder} {dg : Generics} {ins : List FnArg} {ce : List CallArg} {sig : Sig}
    (h : prepare b = .ok (dg, ins, ce, sig)) :
    ∃ calls, ce = calls.filterMap _root_.id ∧ Named (argNames b.sig.inputs) ins calls sig.inputs := by
  unfold prepare at h
  split at h
  · simp only [concretizeArgs, gen_bind_ok, gen_pure_ok, Prod.mk.injEq] at h
    obtain ⟨m, -, hm, -, o, ho, c, hc, i, hi, -, rfl, rfl, rfl⟩ := h
    refine ⟨c, rfl, named (f := concretizeArg hm) (c := concretizeCall hm) (g := concretizeSigArg hm)
      ?_ ?_ ?_ ?_ ?_ ?_ ho hc hi⟩
    · intro r m k t a h
      exact ⟨r, m, k, t, concretizeArg_receiver h⟩
    · intro a p t b h
      simp only [concretizeArg, gen_bind_ok] at h
      obtain ⟨p', hp, h⟩ := h
      obtain ⟨m, i, rfl, rfl⟩ := demutifyPat_bind hp
      split at h <;> simp only [gen_pure_ok] at h <;> exact ⟨m, i, _, rfl, h.symm⟩
    · intro r m k t a h
      simp only [concretizeCall, gen_pure_ok] at h
      exact h.symm
    · intro a m i t b h hs
      simp only [concretizeCall, gen_bind_ok] at h
      obtain ⟨p', hp, h⟩ := h
      obtain ⟨m', i', e, rfl⟩ := demutifyPat_bind hp
      obtain ⟨-, rfl, rfl, -⟩ := Pat.ident.inj e
      simp only [patIsSelf, bindPat, hs, decide_false, Bool.false_eq_true, if_false] at h
      split at h
      · simp only [gen_pure_ok] at h
        exact ⟨_, h.symm, rfl⟩
      · split at h <;> simp only [gen_pure_ok] at h <;> exact ⟨_, h.symm, rfl⟩
    · intro r m k t a h
      simp only [concretizeSigArg, gen_pure_ok] at h
      exact ⟨_, _, _, _, h.symm⟩
    · intro a m i t b h
      simp only [concretizeSigArg] at h
      split at h <;> simp only [gen_pure_ok] at h <;> exact ⟨_, _, _, h.symm⟩
  · simp only [declosurefy, gen_bind_ok, gen_pure_ok, Prod.mk.injEq] at h
    obtain ⟨_, ⟨m, -, hm, -, o, ho, c, hc, rfl⟩, -, rfl, rfl, rfl⟩ := h
    refine ⟨c, rfl, named (f := declosureArg hm) (c := declosureCall hm) (g := pure)
      ?_ ?_ ?_ ?_ ?_ ?_ ho hc (mapM_pure_ok _)⟩
    · intro r m k t a h
      simp only [declosureArg, gen_pure_ok] at h
      exact ⟨_, _, _, _, h.symm⟩
    · intro a p t b h
      simp only [declosureArg, gen_bind_ok, gen_pure_ok] at h
      obtain ⟨p', hp, h⟩ := h
      obtain ⟨m, i, rfl, rfl⟩ := demutifyPat_bind hp
      exact ⟨m, i, _, rfl, h.symm⟩
    · intro r m k t a h
      simp only [declosureCall, gen_pure_ok] at h
      exact h.symm
    · intro a m i t b h hs
      simp only [declosureCall, gen_bind_ok] at h
      obtain ⟨p', hp, h⟩ := h
      obtain ⟨m', i', e, rfl⟩ := demutifyPat_bind hp
      obtain ⟨-, rfl, rfl, -⟩ := Pat.ident.inj e
      simp only [patIsSelf, bindPat, hs, decide_false, Bool.false_eq_true, if_false] at h
      split at h <;> simp only [gen_pure_ok] at h <;> exact ⟨_, h.symm, rfl⟩
    · intro r m k t a h
      simp only [gen_pure_ok] at h
      exact ⟨_, _, _, _, h.symm⟩
    · intro a m i t b h
      simp only [gen_pure_ok] at h
      exact ⟨_, _, _, h.symm⟩

theorem buildArgs_names {n : Nat} : ∀ {ins : List FnArg} {as : List BArg} {st : Bool} {l : List (Ident × Ty)},
    buildArgs n ins = .ok (as, st) →
    (ins.filterMap fun | .typed _ p t => some (p, t) | _ => none) = l.map (fun x => (bindPat x.1, x.2)) →
    as.map BArg.name = l.map (fun x => bindPat x.1) ∧ ∀ x ∈ l, x.1 ≠ "self"
  | [], as, st, l, h, e => by
    simp only [buildArgs, gen_pure_ok, Prod.mk.injEq] at h
    obtain rfl := h.1
    cases l with
    | nil => exact ⟨rfl, by simp⟩
    | cons x l => simp at e
  | .receiver r m k t :: ins, as, st, l, h, e => by
    simp only [buildArgs, gen_bind_ok, gen_pure_ok, Prod.mk.injEq] at h
    obtain ⟨⟨as', st'⟩, h, rfl, -⟩ := h
    exact buildArgs_names h (by simpa using e)
  | .typed a p t :: ins, as, st, l, h, e => by
    simp only [buildArgs, gen_bind_ok, gen_pure_ok, Prod.mk.injEq] at h
    obtain ⟨c, hc, ⟨as', st'⟩, h, rfl, -⟩ := h
    cases l with
    | nil => simp at e
    | cons x l =>
      simp only [List.filterMap_cons, List.map_cons, List.cons.injEq, Prod.mk.injEq] at e
      obtain ⟨⟨rfl, rfl⟩, e⟩ := e
      obtain ⟨h1, -, h2, -⟩ := buildArg_fits hc
      obtain ⟨k1, k2⟩ := buildArgs_names h e
      refine ⟨by simp [h1, k1], ?_⟩
      simp only [List.mem_cons, forall_eq_or_imp]
      exact ⟨by simpa [patIsSelf] using h2, k2⟩

/-- The names of the function, the arguments and the expressions. -/
structure BuiltNames (f : MockFn) (names : List Ident) : Prop where
  sig : f.sig.names = names
  args : f.args.map BArg.name = names.map bindPat
  calls : f.callExprs.map callPat = names.map bindPat

theorem built_names {b : Builder} {f : MockFn} (h : build b = .ok f) :
    BuiltNames f (argNames b.sig.inputs) := by
  obtain ⟨s⟩ := build_steps h
  obtain ⟨calls, hce, hn⟩ := prepare_named s.prep
  obtain ⟨l, hl, hins⟩ := hn.ins
  obtain ⟨h1, h2⟩ := buildArgs_names s.args hins
  have hself : ∀ x ∈ argNames b.sig.inputs, x ≠ "self" := by
    rw [← hl]
    intro x hx
    obtain ⟨y, hy, rfl⟩ := List.mem_map.1 hx
    exact h2 y hy
  refine ⟨hn.sig.2, ?_, ?_⟩
  · rw [h1, ← hl, List.map_map]; rfl
  · rw [hce]; exact hn.calls hself

theorem BuiltNames.argnames {f : MockFn} {names : List Ident} (h : BuiltNames f names) : f.argnames = names := by
  have key : ∀ (l : List BArg) (m : List Ident), l.map BArg.name = m.map bindPat →
      (l.flatMap fun a => a.name.names) = m := by
    intro l
    induction l with
    | nil => intro m e; cases m with
      | nil => rfl
      | cons => simp at e
    | cons a l ih => intro m e; cases m with
      | nil => simp at e
      | cons x m =>
        simp only [List.map_cons, List.cons.injEq] at e
        simp only [List.flatMap_cons, ih m e.2, e.1]
        rfl
  exact key _ _ h.args

theorem BuiltNames.predexprs {f : MockFn} {names : List Ident} (h : BuiltNames f names) :
    f.predexprs = List.zipWith Wrap.ex (f.args.map predWrap) names := by
  have key : ∀ (l : List BArg) (m : List Ident), l.map BArg.name = m.map bindPat →
      (l.flatMap fun a => a.name.names.map fun x => if a.byRef then .ref false (.var x) else .var x) =
        List.zipWith Wrap.ex (l.map predWrap) m := by
    intro l
    induction l with
    | nil => intro m e; cases m with
      | nil => rfl
      | cons => simp at e
    | cons a l ih => intro m e; cases m with
      | nil => simp at e
      | cons x m =>
        simp only [List.map_cons, List.cons.injEq] at e
        simp only [List.flatMap_cons, ih m e.2, e.1, List.map_cons, List.zipWith_cons_cons, predWrap]
        cases a.byRef <;> rfl
  exact key _ _ h.args

theorem BuiltNames.exprs {f : MockFn} {names : List Ident} (h : BuiltNames f names) :
    f.callExprs.flatMap CallArg.ex = List.zipWith Wrap.ex (f.callExprs.map callWrap) names := by
  have key : ∀ (l : List CallArg) (m : List Ident), l.map callPat = m.map bindPat →
      l.flatMap CallArg.ex = List.zipWith Wrap.ex (l.map callWrap) m := by
    intro l
    induction l with
    | nil => intro m e; cases m with
      | nil => rfl
      | cons => simp at e
    | cons a l ih => intro m e; cases m with
      | nil => simp at e
      | cons x m =>
        simp only [List.map_cons, List.cons.injEq] at e
        simp only [List.flatMap_cons, ih m e.2, List.map_cons, List.zipWith_cons_cons]
        cases a <;> simp only [callPat] at e <;> rw [e.1] <;> rfl
  exact key _ _ h.calls

/-! ## C76 -/

theorem zipWith_handed (cs : List CallArg) (ts : List (Thing V)) :
    List.zipWith Wrap.on (cs.map callWrap) ts = List.zipWith handed cs ts := by
  rw [List.zipWith_map_left]
  congr 1
  funext c t
  exact callWrap_on c t

theorem zipWith_looked (cs : List BArg) (ts : List (Thing V)) :
    List.zipWith Wrap.on (cs.map predWrap) ts = List.zipWith looked cs ts := by
  rw [List.zipWith_map_left]
  congr 1
  funext c t
  exact predWrap_on c t

theorem run_pass {f : MockFn} {names : List Ident} (h : BuiltNames f names) (hn : names.Nodup)
    {locals : List (Ident × Internal)} (hloc : ∀ y ∈ locals, y.1 ∉ names) {ts : List (Thing V)}
    (ht : ts.length = names.length) : (f.pass locals).run ts = some ts := by
  unfold MockFn.pass
  rw [h.argnames]
  rw [run_wraps (ws := ts.map fun _ => .id) ?_ (by simp [ht]) hn hloc ht, zipWith_id rfl]
  rw [vars_eq]
  congr 1
  apply List.ext_getElem? 
  intro i
  simp only [List.getElem?_map]
  rcases Nat.lt_or_ge i names.length with h | h
  · simp [List.getElem?_eq_getElem h, List.getElem?_eq_getElem (ht ▸ h : i < ts.length)]
  · simp [List.getElem?_eq_none h, List.getElem?_eq_none (ht ▸ h : ts.length ≤ i)]

section
variable {b : Builder} {f : MockFn} {vs : List V}

theorem hidden_free {k : Kind} {names : List Ident} (h : ∀ x ∈ names, ¬ Hidden k x) {y : Ident}
    (hy : Hidden k y) : y ∉ names := fun hm => h y hm hy

theorem run_mock (h : build b = .ok f) (hn : (argNames b.sig.inputs).Nodup)
    (hh : ∀ x ∈ argNames b.sig.inputs, ¬ Hidden f.kind x) (hl : vs.length = (argNames b.sig.inputs).length) :
    f.mockRelay.run (vs.map .given) = some (List.zipWith handed f.callExprs (vs.map .given)) ∧
    (List.zipWith handed f.callExprs (vs.map .given)).length = (argNames b.sig.inputs).length := by
  have hb := built_names h
  have hc : f.callExprs.length = (argNames b.sig.inputs).length := by
    have := congrArg List.length hb.calls
    simpa using this
  refine ⟨?_, by simp [hc, hl]⟩
  unfold MockFn.mockRelay
  rw [hb.sig, run_wraps hb.exprs (by simp [hc]) hn ?_ (by simp [hl]), zipWith_handed]
  intro y hy
  refine hidden_free hh ?_
  simp only [List.mem_cons] at hy
  rcases hy with rfl | hy
  · exact .inl rfl
  · split at hy
    · simp only [List.mem_singleton] at hy
      subst hy
      exact .inr (.inl (by decide))
    · cases hy

theorem relay_generic (h : build b = .ok f) (hn : (argNames b.sig.inputs).Nodup)
    (hh : ∀ x ∈ argNames b.sig.inputs, ¬ Hidden f.kind x) {ts : List (Thing V)}
    (hl : ts.length = (argNames b.sig.inputs).length) (rs : List Relay) :
    relay (f.genericRelay ++ rs) ts = relay rs ts := by
  unfold MockFn.genericRelay
  split
  · simp only [List.cons_append, List.nil_append, relay]
    rw [run_pass (built_names h) hn ?_ hl]
    · rfl
    · intro y hy
      simp only [List.mem_singleton] at hy
      subst hy
      exact hidden_free hh (.inr (.inl (by decide)))
  · rfl

theorem relay_pass (h : build b = .ok f) (hn : (argNames b.sig.inputs).Nodup) {ts : List (Thing V)}
    (hl : ts.length = (argNames b.sig.inputs).length) {locals : List (Ident × Internal)}
    (hloc : ∀ y ∈ locals, y.1 ∉ argNames b.sig.inputs) (rs : List Relay) :
    relay (f.pass locals :: rs) ts = relay rs ts := by
  simp only [relay]
  rw [run_pass (built_names h) hn hloc hl]
  rfl

/-- C76.  The return closure of an expectation gets the arguments of the call, each in its place, whatever they
are called, except that the names of `Hidden` are not free to use (`C76_captured`). -/
theorem C76_closure_partial (h : build b = .ok f) (hk : f.kind ≠ .ref) (hn : (argNames b.sig.inputs).Nodup)
    (hh : ∀ x ∈ argNames b.sig.inputs, ¬ Hidden f.kind x) (hl : vs.length = (argNames b.sig.inputs).length) :
    relay f.toClosure (vs.map .given) = some (List.zipWith handed f.callExprs (vs.map .given)) := by
  obtain ⟨h1, h2⟩ := run_mock (vs := vs) h hn hh hl
  unfold MockFn.toClosure
  simp only [relay]
  rw [h1, Option.bind_some, relay_generic h hn hh h2]
  unfold MockFn.expectationsRelay MockFn.expectationRelay MockFn.rfuncRelay
  rw [if_neg hk, if_neg hk, relay_pass h hn h2, relay_pass h hn h2, relay_pass h hn h2]
  · rfl
  all_goals
    intro y hy
    refine hidden_free hh ?_
    try split at hy
    all_goals
      simp only [List.mem_cons, List.mem_singleton, List.not_mem_nil, or_false] at hy
  · rcases hy with rfl | rfl <;> exact .inr (.inl (by decide))
  · subst hy; exact .inr (.inl (by decide))
  · rename_i hk
    subst hy; exact .inr (.inr ⟨hk, rfl⟩)
  · subst hy; exact .inr (.inl (by decide))

theorem relay_find (h : build b = .ok f) (hn : (argNames b.sig.inputs).Nodup)
    (hh : ∀ x ∈ argNames b.sig.inputs, ¬ Hidden f.kind x) {ts : List (Thing V)}
    (hl : ts.length = (argNames b.sig.inputs).length) {locals : List (Ident × Internal)}
    (hloc : ∀ y ∈ locals, y.1 ∉ argNames b.sig.inputs) :
    relay (f.findRelay :: (f.matchesRelay ++ [f.pass locals])) ts = some (List.zipWith looked f.args ts) := by
  have hb := built_names h
  have hc : f.args.length = (argNames b.sig.inputs).length := by
    have := congrArg List.length hb.args
    simpa using this
  simp only [relay]
  unfold MockFn.findRelay
  rw [hb.argnames, run_wraps hb.predexprs (by simp [hc]) hn ?_ hl, zipWith_looked, Option.bind_some]
  · have h2 : (List.zipWith looked f.args ts).length = (argNames b.sig.inputs).length := by simp [hc, hl]
    unfold MockFn.matchesRelay
    simp only [List.cons_append, List.nil_append]
    rw [relay_pass h hn h2 (by simp), relay_pass h hn h2 (by simp), relay_pass h hn h2 hloc]
    rfl
  · intro y hy
    simp only [List.mem_singleton] at hy
    subst hy
    exact hidden_free hh (.inr (.inl (by decide)))

/-- C76.  A method that returns `&T` has no return closure with arguments: none are passed on. -/
theorem C76_ref (h : build b = .ok f) (hk : f.kind = .ref) (hn : (argNames b.sig.inputs).Nodup)
    (hh : ∀ x ∈ argNames b.sig.inputs, ¬ Hidden f.kind x) (hl : vs.length = (argNames b.sig.inputs).length) :
    relay f.toClosure (vs.map .given) = some [] := by
  obtain ⟨h1, h2⟩ := run_mock (vs := vs) h hn hh hl
  unfold MockFn.toClosure
  simp only [relay]
  rw [h1, Option.bind_some, relay_generic h hn hh h2]
  unfold MockFn.expectationsRelay MockFn.expectationRelay MockFn.rfuncRelay
  rw [if_pos hk, if_pos hk, relay_pass h hn h2]
  · simp only [relay, Relay.run, (built_names h).argnames, h2, if_true, List.mapM_nil]
    rfl
  · intro y hy
    simp only [List.mem_singleton] at hy
    subst hy
    exact hidden_free hh (.inr (.inl (by decide)))

/-- C76.  The function given to `withf` gets references to them, or the arguments themselves if they are
references. -/
theorem C76_withf_partial (h : build b = .ok f) (hn : (argNames b.sig.inputs).Nodup)
    (hh : ∀ x ∈ argNames b.sig.inputs, ¬ Hidden f.kind x) (hl : vs.length = (argNames b.sig.inputs).length) :
    relay f.toFunc (vs.map .given) =
      some (List.zipWith looked f.args (List.zipWith handed f.callExprs (vs.map .given))) := by
  obtain ⟨h1, h2⟩ := run_mock (vs := vs) h hn hh hl
  unfold MockFn.toFunc
  simp only [relay]
  rw [h1, Option.bind_some, relay_generic h hn hh h2]
  refine relay_find h hn hh h2 ?_
  intro y hy
  simp only [List.mem_singleton] at hy
  subst hy
  exact hidden_free hh (.inr (.inl (by decide)))

/-- C76.  So do the predicates given to `with`, one each. -/
theorem C76_with_partial (h : build b = .ok f) (hn : (argNames b.sig.inputs).Nodup)
    (hh : ∀ x ∈ argNames b.sig.inputs, ¬ Hidden f.kind x) (hl : vs.length = (argNames b.sig.inputs).length) :
    relay f.toPred (vs.map .given) =
      some (List.zipWith looked f.args (List.zipWith handed f.callExprs (vs.map .given))) := by
  obtain ⟨h1, h2⟩ := run_mock (vs := vs) h hn hh hl
  unfold MockFn.toPred
  simp only [relay]
  rw [h1, Option.bind_some, relay_generic h hn hh h2]
  refine relay_find h hn hh h2 ?_
  intro y hy
  simp only [List.mem_singleton] at hy
  subst hy
  exact hidden_free hh (.inr (.inl (by decide)))

/-- C76.  The message of a call that finds no expectation shows the arguments of the call, in order; here any
name will do. -/
theorem C76_message (h : build b = .ok f) (hn : (argNames b.sig.inputs).Nodup)
    (hl : vs.length = (argNames b.sig.inputs).length) :
    f.descRelay.run (vs.map .given) = some (vs.map fun v => .ref false (.given v)) := by
  have hb := built_names h
  unfold MockFn.descRelay
  rw [hb.sig, hb.argnames, run_wraps (refs_eq _) (by simp) hn (by simp) (by simp [hl]), zipWith_ref (by simp [hl]),
    List.map_map]
  rfl

/-- C76.  And so does the message of a call out of sequence, as the expectation got them. -/
theorem C76_sequence_message_partial (h : build b = .ok f) (hn : (argNames b.sig.inputs).Nodup)
    (hh : ∀ x ∈ argNames b.sig.inputs, ¬ Hidden f.kind x) (hl : vs.length = (argNames b.sig.inputs).length) :
    relay f.toDesc (vs.map .given) =
      some ((List.zipWith handed f.callExprs (vs.map .given)).map (.ref false)) := by
  obtain ⟨h1, h2⟩ := run_mock (vs := vs) h hn hh hl
  unfold MockFn.toDesc
  simp only [relay]
  rw [h1, Option.bind_some, relay_generic h hn hh h2]
  unfold MockFn.expectationsRelay
  rw [relay_pass h hn h2]
  · simp only [relay, (built_names h).argnames]
    rw [run_wraps (refs_eq _) (by simp) hn (by simp) h2, zipWith_ref h2]
    rfl
  · intro y hy
    simp only [List.mem_singleton] at hy
    subst hy
    exact hidden_free hh (.inr (.inl (by decide)))

/-- C76.  There is one expression for each argument. -/
theorem C76_each (h : build b = .ok f) : f.callExprs.length = (argNames b.sig.inputs).length ∧
    f.args.length = (argNames b.sig.inputs).length := by
  have hb := built_names h
  have h1 := congrArg List.length hb.calls
  have h2 := congrArg List.length hb.args
  simp only [List.length_map] at h1 h2
  exact ⟨h1, h2⟩

/-! ## Where it fails -/

theorem source_on (w : Wrap) (t : Thing V) : source (w.on t) = source t := by cases w <;> rfl

/-- Something that was not passed by the caller. -/
def Foreign (ts : List (Thing V)) (i : Nat) : Prop := ∃ t, ts[i]? = some t ∧ source t = none

theorem run_getElem {r : Relay} {ws : List Wrap} (he : r.exprs = List.zipWith Wrap.ex ws r.params)
    {ts out : List (Thing V)} (h : r.run ts = some out) {i : Nat} {x : Ident} {w : Wrap}
    (hx : r.params[i]? = some x) (hw : ws[i]? = some w) :
    ∃ t, (r.scope ts).lookup x = some t ∧ out[i]? = some (w.on t) := by
  unfold Relay.run at h
  split at h
  · rw [he] at h
    generalize r.scope ts = ρ at h
    generalize r.params = xs at h hx
    clear he
    induction xs generalizing i ws out with
    | nil => simp at hx
    | cons y xs ih =>
      cases ws with
      | nil => simp at hw
      | cons v ws =>
        simp only [List.zipWith_cons_cons, List.mapM_cons, Wrap.eval] at h
        cases hy : ρ.lookup y with
        | none => simp [hy] at h
        | some t =>
          simp only [hy, Option.map_some] at h
          cases hr : (List.zipWith Wrap.ex ws xs).mapM (Ex.eval ρ) with
          | none => simp [hr] at h
          | some rest =>
            simp only [hr] at h
            cases h
            cases i with
            | zero => simp_all
            | succ i =>
              simp only [List.getElem?_cons_succ] at hx hw ⊢
              exact ih hw hr hx
  · cases h

/-- Once there is something foreign at a place, it stays so. -/
theorem foreign_run {r : Relay} {ws : List Wrap} (he : r.exprs = List.zipWith Wrap.ex ws r.params)
    (hn : r.params.Nodup) (hl : ws.length = r.params.length) {ts out : List (Thing V)} (h : r.run ts = some out)
    {i : Nat} {x : Ident} (hx : r.params[i]? = some x) (hf : Foreign ts i ∨ ∃ y ∈ r.locals, y.1 = x) :
    Foreign out i := by
  have hi : i < r.params.length := (List.getElem?_eq_some_iff.1 hx).1
  obtain ⟨t, h1, h2⟩ := run_getElem he h hx (List.getElem?_eq_getElem (hl ▸ hi))
  refine ⟨_, h2, ?_⟩
  rw [source_on]
  by_cases hloc : ∃ y ∈ r.locals, y.1 = x
  · obtain ⟨j, hj⟩ := scope_local (args := ts) hloc
    rw [h1] at hj
    cases hj
    rfl
  · rcases hf with ⟨s, hs, hsrc⟩ | hf
    · have hlen : ts.length = r.params.length := by
        unfold Relay.run at h
        split at h
        · assumption
        · cases h
      have := scope_param hlen hn (x := x) (t := s) ?_ fun y hy e => hloc ⟨y, hy, e⟩
      · rw [h1] at this
        cases this
        exact hsrc
      · refine List.mem_of_getElem? (i := i) ?_
        rw [List.getElem?_zip_eq_some]
        exact ⟨hx, hs⟩
    · exact absurd hf hloc

theorem foreign_pass (h : build b = .ok f) (hn : (argNames b.sig.inputs).Nodup)
    {locals : List (Ident × Internal)} {ts out : List (Thing V)} (hr : (f.pass locals).run ts = some out)
    {i : Nat} {x : Ident} (hx : (argNames b.sig.inputs)[i]? = some x)
    (hf : Foreign ts i ∨ ∃ y ∈ locals, y.1 = x) : Foreign out i := by
  have hb := built_names h
  unfold MockFn.pass at hr
  rw [hb.argnames] at hr
  exact foreign_run (r := ⟨_, locals, _⟩) (vars_eq _) hn (by simp) hr hx hf

theorem relay_cons {r : Relay} {rs : List Relay} {ts out : List (Thing V)} (h : relay (r :: rs) ts = some out) :
    ∃ m, r.run ts = some m ∧ relay rs m = some out := by
  simp only [relay] at h
  cases hr : r.run ts with
  | none => rw [hr] at h; cases h
  | some m => rw [hr] at h; exact ⟨m, rfl, h⟩

/-- C76 does not hold for an argument called `no_match_msg`, nor in a method that returns `&mut T` for one
called `desc`: the return closure gets at its place something that is not made from what the caller passed.
The types decide whether such code compiles.  It does not for `desc`, which is a `String` that is used once
more.  It does for an argument `no_match_msg: P` of `#[concretize] fn foo<P: AsRef<Path>>`, as a reference to
the message is passed, and `String: AsRef<Path>`. -/
theorem C76_captured (h : build b = .ok f) (hk : f.kind ≠ .ref) (hn : (argNames b.sig.inputs).Nodup) (i : Nat)
    (hx : (argNames b.sig.inputs)[i]? = some "no_match_msg" ∨
      (f.kind = .refMut ∧ (argNames b.sig.inputs)[i]? = some "desc"))
    (out : List (Thing V)) (hout : relay f.toClosure (vs.map .given) = some out) :
    ∃ t, out[i]? = some t ∧ source t = none := by
  have hb := built_names h
  obtain ⟨hce, -⟩ := C76_each h
  obtain ⟨m, h1, h2⟩ := relay_cons hout
  obtain ⟨x, hxi⟩ : ∃ x, (argNames b.sig.inputs)[i]? = some x := by
    rcases hx with hx | ⟨-, hx⟩ <;> exact ⟨_, hx⟩
  have hm : x = "no_match_msg" → Foreign m i := by
    rintro rfl
    unfold MockFn.mockRelay at h1
    rw [hb.sig] at h1
    exact foreign_run (r := ⟨_, _, _⟩) hb.exprs hn (by simp [hce]) h1 hxi (.inr ⟨_, List.mem_cons_self, rfl⟩)
  obtain ⟨m', h3, h4⟩ : ∃ m', (x = "no_match_msg" → Foreign m' i) ∧
      relay [f.expectationsRelay, f.expectationRelay, f.rfuncRelay] m' = some out := by
    unfold MockFn.genericRelay at h2
    split at h2
    · obtain ⟨m', k1, k2⟩ := relay_cons h2
      exact ⟨m', fun e => foreign_pass h hn k1 hxi (.inl (hm e)), k2⟩
    · exact ⟨m, hm, h2⟩
  obtain ⟨m1, k1, k2⟩ := relay_cons h4
  obtain ⟨m2, k3, k4⟩ := relay_cons k2
  obtain ⟨m3, k5, k6⟩ := relay_cons k4
  cases k6
  unfold MockFn.expectationsRelay at k1
  unfold MockFn.expectationRelay at k3
  unfold MockFn.rfuncRelay at k5
  rw [if_neg hk] at k3 k5
  have hm2 : Foreign m2 i := by
    rcases hx with hx | ⟨hk, hx⟩
    · rw [hx] at hxi; cases hxi
      exact foreign_pass h hn k3 hx (.inl (foreign_pass h hn k1 hx (.inl (h3 rfl))))
    · refine foreign_pass h hn k3 hx (.inr ?_)
      rw [if_pos hk]
      exact ⟨_, List.mem_singleton.2 rfl, rfl⟩
  exact foreign_pass h hn k5 hxi (.inl hm2)

end

/-! ## Examples -/

/-- What the return closure gets. -/
def closureGets (b : Builder) (vs : List Nat) : Option (List (Thing Nat)) :=
  (build b).toOption.bind fun f => relay f.toClosure (vs.map .given)

/-- What the predicates get. -/
def predsGet (b : Builder) (vs : List Nat) : Option (List (Thing Nat)) :=
  (build b).toOption.bind fun f => relay f.toPred (vs.map .given)

/-- `#[concretize] fn foo<P: AsRef<Path>>(&self, mut n: u32, x: P) -> out` -/
def exRelay (x : Ident) (out : Ret) : Builder where
  sig := { ident := "foo", output := out,
           generics := { angle := true, params := [.ty { id := "P", bounds := [.trait false [] false
             [.mk "AsRef" (.angle [.ty (.name "Path")])]] }] },
           inputs := [.receiver (some none) true false (.name "Self"),
             .typed [] (.ident false true "n" false) (.name "u32"),
             .typed [] (.ident false false x false) (.name "P")] }
  concretize := true

/-- The closure gets `n` and `&x`, the predicates get `&n` and `&x`. -/
example : closureGets (exRelay "x" .unit) [1, 2] = some [.given 1, .ref false (.given 2)] ∧
    predsGet (exRelay "x" .unit) [1, 2] = some [.ref false (.given 1), .ref false (.given 2)] := by
  decide +kernel

/-- With `no_match_msg: P` the second argument is lost: the mock sees the message instead. -/
example : closureGets (exRelay "no_match_msg" .unit) [1, 2] =
      some [.given 1, .ref false (.internal .message)] ∧
    predsGet (exRelay "no_match_msg" .unit) [1, 2] =
      some [.ref false (.given 1), .ref false (.internal .message)] := by
  decide +kernel

/-- `desc` is an ordinary name, but not in a method that returns `&mut T`. -/
example : closureGets (exRelay "desc" .unit) [1, 2] = some [.given 1, .ref false (.given 2)] ∧
    closureGets (exRelay "desc" (.ty (.ref none true (.name "u32")))) [1, 2] =
      some [.given 1, .internal .description] ∧
    predsGet (exRelay "desc" (.ty (.ref none true (.name "u32")))) [1, 2] =
      some [.ref false (.given 1), .ref false (.given 2)] := by
  decide +kernel

/-- The hypotheses of `C76_closure_partial`. -/
example : ∃ f, build (exRelay "x" .unit) = .ok f ∧ f.kind ≠ .ref ∧
    (argNames (exRelay "x" .unit).sig.inputs).Nodup ∧
    (∀ x ∈ argNames (exRelay "x" .unit).sig.inputs, ¬ Hidden f.kind x) := by
  cases h : build (exRelay "x" .unit) with
  | error e =>
    have : (build (exRelay "x" .unit)).toOption.isSome = true := by decide +kernel
    rw [h] at this
    cases this
  | ok f =>
    have hk : f.kind = .static := by
      have : (build (exRelay "x" .unit)).toOption.map MockFn.kind = some .static := by decide +kernel
      rw [h] at this
      simpa [Except.toOption] using this
    refine ⟨f, rfl, by rw [hk]; decide, by decide, ?_⟩
    intro x hx
    rw [hk]
    have : x = "n" ∨ x = "x" := by simpa [exRelay, argNames] using hx
    rcases this with rfl | rfl <;> (unfold Hidden; decide)

end Mockall.Props
