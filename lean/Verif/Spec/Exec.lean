import Verif.Spec.Struct
import Verif.Rt.System

/-! # Running generated code

What the generated functions of one mock struct do, given what the types they mention (`Expectations`,
`Context`, ..) do at run time.  Only the code is looked at, not how it was generated. -/

namespace Mockall.Spec

open Derive

variable {V : Type}

/-- The store `self.p` of the struct `s`: it holds the expectations of `module`, in a `GenericExpectations`
if `g`. -/
inductive StoreAt (items : List Item) : Ident → List Ident → List Ident → Bool → Prop
  | here (s f module g) (h : HasField items s f (.store module g)) : StoreAt items s [f] module g
  | sub (s f s' p module g) (h : HasField items s f (.sub s')) (k : StoreAt items s' p module g) :
    StoreAt items s (f :: p) module g

/-- The fields of an object, by their path. -/
abbrev Fields (V : Type) := List Ident → Slot V

/-- Write to a field. -/
def Fields.set (μ : Fields V) (p : List Ident) (st : Store V) : Fields V :=
  fun q => if q = p then { μ p with store := st } else μ q

/-- What happens in a program that uses the mock `s`.  Functions go by the names they have in the code, in an
`impl s` or an `impl t for s`. -/
inductive GOp (V : Type)
  | new
  | expect (o : Nat) (n : Ident) (k : Key) (bs : List (Build V))
  | call (o : Nat) (t : Option TraitPath) (n : Ident) (k : Key) (tid : Nat) (args : List V) (upd : V → V)
  | checkpoint (o : Nat)
  | drop (o : Nat) (panicking : Bool)
  /-- Calls of functions without receiver. -/
  | scall (t : Option TraitPath) (n : Ident) (k : Key) (tid : Nat) (args : List V)
  /-- Uses of the `Context` returned by `n`. -/
  | sexpect (n : Ident) (k : Key) (bs : List (Build V))
  | scheckpoint (n : Ident)
  | sdrop (n : Ident) (panicking : Bool)

/-- Objects (`none` once dropped), the static expectations of each module, and the rest. -/
structure GState (V : Type) where
  objs : List (Option (Fields V))
  statics : List Ident → StaticFn V
  world : World V

/-- The statement `self.p.checkpoint();` for each of these stores; a panic skips the rest. -/
def checkpointAll (env : Env V) : List (List Ident) → Fields V → (Except Panic Unit × Bool) × Fields V
  | [], μ => ((.ok (), false), μ)
  | p :: l, μ =>
    match dropAll false (μ p).mi.base ((μ p).store.elems env) with
    | (.error e, ab) => ((.error e, ab), μ.set p (μ p).store.drained)
    | (.ok (), _) => checkpointAll env l (μ.set p (μ p).store.drained)

/-- What the code in `module` knows of its function: `generic` is as the type of the field says. -/
def infoAt (info : List Ident → MethodInfo V) (module : List Ident) (g : Bool) : MethodInfo V :=
  { info module with generic := g }

/-- The static expectations of one module change. -/
def GState.setStatic (σ : GState V) (module : List Ident) (f : StaticFn V) : GState V :=
  { σ with statics := fun m => if m = module then f else σ.statics m }

/-- `s` implements `Default`, and so do the structs in its fields; each of these `impl`s sets all fields, by
their own `Default`, which is an empty store for a field of expectations. -/
inductive Defaults (items : List Item) : Ident → Prop
  | mk (s h fs a inits) (hs : .struct h s fs ∈ items) (hd : .dflt a s inits ∈ items)
    (hi : inits.map WithAttrs.val = fs.map Field.name)
    (hsub : ∀ fa f s', ⟨fa, f, .sub s'⟩ ∈ fs → Defaults items s') : Defaults items s

/-- One step of a program: what is seen, and the state afterwards.  `info` says what the code in the modules
knows of their functions. -/
inductive GStep (items : List Item) (s : Ident) (info : List Ident → MethodInfo V) (env : Env V) :
    GState V → GOp V → Obs V → GState V → Prop
  /-- `default()`, which is what `new` is if generated: all fields are empty. -/
  | new (σ : GState V) (μ : Fields V) (hd : Defaults items s)
    (h : ∀ p module g, StoreAt items s p module g →
      μ p = ⟨infoAt info module g, .new (infoAt info module g)⟩) :
    GStep items s info env σ .new (.unit (.ok ()) false) { σ with objs := σ.objs ++ [some μ] }
  /-- `self.p.expect()`. -/
  | expect (σ : GState V) (o n k bs) (μ : Fields V) (p module g) (ho : σ.objs[o]? = some (some μ))
    (hf : HasFn items s none n (.expect p module)) (hp : StoreAt items s p module g) :
    GStep items s info env σ (.expect o n k bs)
      (.unit ((μ p).store.expect env.nightly (μ p).mi k bs σ.world).1 false)
      { σ with
        objs := σ.objs.set o (some (μ.set p ((μ p).store.expect env.nightly (μ p).mi k bs σ.world).2.1))
        world := ((μ p).store.expect env.nightly (μ p).mi k bs σ.world).2.2 }
  /-- `self.p.call(..).expect(..)`. -/
  | call (σ : GState V) (o t n k tid args upd) (μ : Fields V) (p module g)
    (ho : σ.objs[o]? = some (some μ)) (hf : HasFn items s t n (.call p)) (hp : StoreAt items s p module g)
    (cx : Cx V) (hcx : cx = ⟨env.nightly, tid, env.dbg, upd⟩) :
    GStep items s info env σ (.call o t n k tid args upd)
      (.value (expectMatch cx ((μ p).mi.fn k) args ((μ p).store.call cx (μ p).mi k args σ.world).1))
      { σ with
        objs := σ.objs.set o (some (μ.set p ((μ p).store.call cx (μ p).mi k args σ.world).2.1))
        world := ((μ p).store.call cx (μ p).mi k args σ.world).2.2 }
  | checkpoint (σ : GState V) (o) (μ : Fields V) (l) (ho : σ.objs[o]? = some (some μ))
    (hl : Checkpoints items s l) :
    GStep items s info env σ (.checkpoint o)
      (.unit (checkpointAll env l μ).1.1 (checkpointAll env l μ).1.2)
      { σ with objs := σ.objs.set o (some (checkpointAll env l μ).2) }
  /-- The fields are dropped. -/
  | drop (σ : GState V) (o panicking) (μ : Fields V) (l) (ho : σ.objs[o]? = some (some μ))
    (hl : DropOrder items s l) :
    GStep items s info env σ (.drop o panicking)
      (.unit (Obj.drop env panicking (l.map μ)).1 (Obj.drop env panicking (l.map μ)).2)
      { σ with objs := σ.objs.set o none }
  | scall (σ : GState V) (t n k tid args) (module) (hf : HasFn items s t n (.callStatic module))
    (hm : HasModule items module) (r) (hr : r = (σ.statics module).call ⟨env.nightly, tid, env.dbg, id⟩ k args σ.world) :
    GStep items s info env σ (.scall t n k tid args) (.value r.1)
      { σ.setStatic module r.2.1 with world := r.2.2 }
  | sexpect (σ : GState V) (n k bs) (module) (hf : HasFn items s none n (.context module))
    (hm : HasModule items module) (r) (hr : r = (σ.statics module).expect env.nightly k bs σ.world) :
    GStep items s info env σ (.sexpect n k bs) (.unit r.1 false)
      { σ.setStatic module r.2.1 with world := r.2.2 }
  | scheckpoint (σ : GState V) (n) (module) (hf : HasFn items s none n (.context module))
    (hm : HasModule items module) (r) (hr : r = (σ.statics module).checkpoint env false) :
    GStep items s info env σ (.scheckpoint n) (.unit r.1.1 r.1.2) (σ.setStatic module r.2)
  | sdrop (σ : GState V) (n panicking) (module) (hf : HasFn items s none n (.context module))
    (hm : HasModule items module) (r) (hr : r = (σ.statics module).dropContext env panicking) :
    GStep items s info env σ (.sdrop n panicking) (.unit r.1.1 r.1.2) (σ.setStatic module r.2)

/-- A whole program: what is seen. -/
inductive GRun (items : List Item) (s : Ident) (info : List Ident → MethodInfo V) (env : Env V) :
    GState V → List (GOp V) → List (Obs V) → GState V → Prop
  | nil (σ) : GRun items s info env σ [] [] σ
  | cons {σ op x σ' ops xs τ} (h : GStep items s info env σ op x σ')
    (k : GRun items s info env σ' ops xs τ) : GRun items s info env σ (op :: ops) (x :: xs) τ

/-- At the start there are no objects and no expectations. -/
def GState.init (info : List Ident → MethodInfo V) : GState V where
  objs := []
  statics := fun m => .new (info m)
  world := { seqs := fun _ => SeqState.new, fresh := 0, made := [], log := [], runs := [] }

/-- The operation of the generated code is this operation of the runtime, where objects have the stores
`l` in this order, with what `ms` says, and the static methods are those of the modules `mods`. -/
inductive Same (items : List Item) (s : Ident) (l : List (List Ident)) (ms : List (MethodInfo V))
    (mods : List (List Ident)) : GOp V → Op V → Prop
  | new : Same items s l ms mods .new (.new ms)
  | expect (o n k bs p module i) (hf : HasFn items s none n (.expect p module)) (hi : l[i]? = some p) :
    Same items s l ms mods (.expect o n k bs) (.expect o i k bs)
  | call (o t n k tid args upd p i) (hf : HasFn items s t n (.call p)) (hi : l[i]? = some p) :
    Same items s l ms mods (.call o t n k tid args upd) (.call o i k tid args upd)
  | checkpoint (o) : Same items s l ms mods (.checkpoint o) (.checkpoint o)
  | drop (o b) : Same items s l ms mods (.drop o b) (.drop o b)
  | scall (t n k tid args module i) (hf : HasFn items s t n (.callStatic module)) (hi : mods[i]? = some module) :
    Same items s l ms mods (.scall t n k tid args) (.scall i k tid args)
  | sexpect (n k bs module i) (hf : HasFn items s none n (.context module)) (hi : mods[i]? = some module) :
    Same items s l ms mods (.sexpect n k bs) (.sexpect i k bs)
  | scheckpoint (n module i) (hf : HasFn items s none n (.context module)) (hi : mods[i]? = some module) :
    Same items s l ms mods (.scheckpoint n) (.scheckpoint i)
  | sdrop (n b module i) (hf : HasFn items s none n (.context module)) (hi : mods[i]? = some module) :
    Same items s l ms mods (.sdrop n b) (.sdrop i b)

end Mockall.Spec
