import Verif.Spec.Exec
import Verif.Spec.Module

/-! # Programs that use several mocks

Mock structs and mock modules, any number of each, in one program.  They share nothing but what is outside of
them: the sequences. -/

namespace Mockall.Spec

open Derive

variable {V : Type}

/-! ## One mock module -/

/-- The module has a function `n` that calls the expectations in `md`. -/
def HasCall (items : List ModOut) (n md : Ident) : Prop :=
  ∃ a nm v q s, .call a nm v q s md ∈ items ∧ s.ident = n

/-- The module has a function `n` that returns the `Context` in `md`. -/
def HasContext (items : List ModOut) (n md : Ident) : Prop := ∃ a v, .context a v n md ∈ items

/-- What happens in a program that uses the functions of a mock module. -/
inductive MOp (V : Type)
  | call (n : Ident) (k : Key) (tid : Nat) (args : List V)
  /-- Uses of the `Context` returned by `n`. -/
  | expect (n : Ident) (k : Key) (bs : List (Build V))
  | checkpoint (n : Ident)
  | drop (n : Ident) (panicking : Bool)
  /-- The function `checkpoint` of the module. -/
  | checkpointAll

/-- The blocks of the function `checkpoint`, one after the other; a panic skips the rest. -/
def checkpointBlocks (env : Env V) : List Ident → GState V → (Except Panic Unit × Bool) × GState V
  | [], σ => ((.ok (), false), σ)
  | n :: l, σ =>
    match (σ.statics [n]).checkpoint env false with
    | ((.error p, ab), f) => ((.error p, ab), σ.setStatic [n] f)
    | ((.ok (), _), f) => checkpointBlocks env l (σ.setStatic [n] f)

/-- One step of a program that uses a mock module.  All modules that the code mentions exist. -/
inductive MStep (items : List ModOut) (env : Env V) : GState V → MOp V → Obs V → GState V → Prop
  | call (σ : GState V) (n k tid args) (md) (hf : HasCall items n md) (hm : md ∈ modules items) (r)
    (hr : r = (σ.statics [md]).call ⟨env.nightly, tid, env.dbg, id⟩ k args σ.world) :
    MStep items env σ (.call n k tid args) (.value r.1) { σ.setStatic [md] r.2.1 with world := r.2.2 }
  | expect (σ : GState V) (n k bs) (md) (hf : HasContext items n md) (hm : md ∈ modules items) (r)
    (hr : r = (σ.statics [md]).expect env.nightly k bs σ.world) :
    MStep items env σ (.expect n k bs) (.unit r.1 false) { σ.setStatic [md] r.2.1 with world := r.2.2 }
  | checkpoint (σ : GState V) (n) (md) (hf : HasContext items n md) (hm : md ∈ modules items) (r)
    (hr : r = (σ.statics [md]).checkpoint env false) :
    MStep items env σ (.checkpoint n) (.unit r.1.1 r.1.2) (σ.setStatic [md] r.2)
  | drop (σ : GState V) (n b) (md) (hf : HasContext items n md) (hm : md ∈ modules items) (r)
    (hr : r = (σ.statics [md]).dropContext env b) :
    MStep items env σ (.drop n b) (.unit r.1.1 r.1.2) (σ.setStatic [md] r.2)
  | checkpointAll (σ : GState V) (v) (l) (hf : .checkpoint v "checkpoint" l ∈ items)
    (hm : ∀ b ∈ l, b.val ∈ modules items) (r) (hr : r = checkpointBlocks env (l.map WithAttrs.val) σ) :
    MStep items env σ .checkpointAll (.unit r.1.1 r.1.2) r.2

/-! ## All mocks -/

/-- The code of a mock, as compiled. -/
inductive Mock
  | struct (items : List Item) (s : Ident)
  | module (items : List ModOut)

/-- An operation on the `i`th mock. -/
inductive POp (V : Type)
  | struct (i : Nat) (op : GOp V)
  | module (i : Nat) (op : MOp V)

/-- Each mock has its objects and static expectations. -/
structure PState (V : Type) where
  objs : Nat → List (Option (Fields V))
  statics : Nat → List Ident → StaticFn V
  world : World V

/-- The part that belongs to the `i`th mock, and what all share. -/
def PState.part (σ : PState V) (i : Nat) : GState V := ⟨σ.objs i, σ.statics i, σ.world⟩

/-- The part that belongs to the `i`th mock, or what all share, has changed. -/
def PState.put (σ : PState V) (i : Nat) (τ : GState V) : PState V where
  objs := fun j => if j = i then τ.objs else σ.objs j
  statics := fun j => if j = i then τ.statics else σ.statics j
  world := τ.world

/-- One step of a program that uses these mocks.  `info i` says what the code in the modules of the `i`th mock
knows of their functions. -/
inductive PStep (mocks : List Mock) (info : Nat → List Ident → MethodInfo V) (env : Env V) :
    PState V → POp V → Obs V → PState V → Prop
  | struct (σ : PState V) (i items s op x τ) (hu : mocks[i]? = some (.struct items s))
    (h : GStep items s (info i) env (σ.part i) op x τ) :
    PStep mocks info env σ (.struct i op) x (σ.put i τ)
  | module (σ : PState V) (i items op x τ) (hu : mocks[i]? = some (.module items))
    (h : MStep items env (σ.part i) op x τ) :
    PStep mocks info env σ (.module i op) x (σ.put i τ)

/-- A whole program: what is seen. -/
inductive PRun (mocks : List Mock) (info : Nat → List Ident → MethodInfo V) (env : Env V) :
    PState V → List (POp V) → List (Obs V) → PState V → Prop
  | nil (σ) : PRun mocks info env σ [] [] σ
  | cons {σ op x σ' ops xs τ} (h : PStep mocks info env σ op x σ')
    (k : PRun mocks info env σ' ops xs τ) : PRun mocks info env σ (op :: ops) (x :: xs) τ

/-- At the start there are no objects and no expectations. -/
def PState.init (info : Nat → List Ident → MethodInfo V) : PState V where
  objs := fun _ => []
  statics := fun i m => .new (info i m)
  world := { seqs := fun _ => SeqState.new, fresh := 0, made := [], log := [], runs := [] }

/-! ## The same program on the runtime -/

/-- As `Same`, for the functions of a mock module, which are the static methods of the modules `mods`. -/
inductive MSame (items : List ModOut) (mods : List (List Ident)) : MOp V → Op V → Prop
  | call (n k tid args md i) (hf : HasCall items n md) (hi : mods[i]? = some [md]) :
    MSame items mods (.call n k tid args) (.scall i k tid args)
  | expect (n k bs md i) (hf : HasContext items n md) (hi : mods[i]? = some [md]) :
    MSame items mods (.expect n k bs) (.sexpect i k bs)
  | checkpoint (n md i) (hf : HasContext items n md) (hi : mods[i]? = some [md]) :
    MSame items mods (.checkpoint n) (.scheckpoint i)
  | drop (n b md i) (hf : HasContext items n md) (hi : mods[i]? = some [md]) :
    MSame items mods (.drop n b) (.sdrop i b)
  | checkpointAll (v l fs) (hf : .checkpoint v "checkpoint" l ∈ items)
    (hi : Pointwise (fun x i => mods[i]? = some [x.val]) l fs) :
    MSame items mods .checkpointAll (.mcheckpoint fs)

/-- The operation with other numbers of objects and static methods. -/
def renumber (f g : Nat → Nat) : Op V → Op V
  | .new ms => .new ms
  | .expect o m k bs => .expect (f o) m k bs
  | .call o m k tid args upd => .call (f o) m k tid args upd
  | .checkpoint o => .checkpoint (f o)
  | .drop o b => .drop (f o) b
  | .sexpect i k bs => .sexpect (g i) k bs
  | .scall i k tid args => .scall (g i) k tid args
  | .scheckpoint i => .scheckpoint (g i)
  | .sdrop i b => .sdrop (g i) b
  | .mcheckpoint fs => .mcheckpoint (fs.map g)

/-- How the mocks are laid out in the runtime: the stores of the objects of each mock and what is known of their
methods, the modules of its static methods, and the static methods of all mocks. -/
structure Plan (V : Type) where
  stores : Nat → List (List Ident)
  infos : Nat → List (MethodInfo V)
  mods : Nat → List (List Ident)
  statics : List (Nat × List Ident)

/-- The operation of the generated code is this operation of the runtime: `obj i` is where the objects of the
`i`th mock are, `stat i` where its static methods are. -/
inductive PSame (mocks : List Mock) (P : Plan V) (obj stat : Nat → Nat → Nat) : POp V → Op V → Prop
  | struct (i items s op op') (hu : mocks[i]? = some (.struct items s))
    (h : Same items s (P.stores i) (P.infos i) (P.mods i) op op') :
    PSame mocks P obj stat (.struct i op) (renumber (obj i) (stat i) op')
  | module (i items op op') (hu : mocks[i]? = some (.module items)) (h : MSame items (P.mods i) op op') :
    PSame mocks P obj stat (.module i op) (renumber (obj i) (stat i) op')

/-- The plan lists every store and every static method once. -/
structure Plan.Lists (P : Plan V) (mocks : List Mock) (info : Nat → List Ident → MethodInfo V)
    (stat : Nat → Nat → Nat) : Prop where
  stores : ∀ i items s, mocks[i]? = some (.struct items s) → (P.stores i).Nodup ∧
    (∀ p, p ∈ P.stores i ↔ ∃ module, IsStore items s p module) ∧
    Pointwise (fun p mi => ∃ module g, StoreAt items s p module g ∧ mi = infoAt (info i) module g)
      (P.stores i) (P.infos i)
  mods : ∀ i, (P.mods i).Nodup
  struct : ∀ i items s, mocks[i]? = some (.struct items s) → ∀ q, q ∈ P.mods i ↔ HasModule items q
  module : ∀ i items, mocks[i]? = some (.module items) → ∀ q, q ∈ P.mods i ↔ ∃ n ∈ modules items, q = [n]
  statics : P.statics.Nodup ∧ ∀ x, x ∈ P.statics ↔ x.1 < mocks.length ∧ x.2 ∈ P.mods x.1
  stat : ∀ i j q, i < mocks.length → (P.mods i)[j]? = some q → P.statics[stat i j]? = some (i, q)

/-- The code of a mock is what the macros generate, and `rustc` accepts it. -/
inductive Mock.Valid : Mock → Prop
  | struct (hash : List Args → Nat) (m : MockableStruct) (items : List Item) (c : Config)
    (h : expandStruct hash m = .ok items) (hs : ∀ a ∈ m.attrs, c.lets a = true)
    (hacc : Accepted (c.strip items)) : Valid (.struct (c.strip items) m.name)
  | module (m : ItemMod) (o : OutMod) (c : Config) (h : expandModule m = .ok o)
    (hacc : (modules (c.stripMod o.items)).Nodup) : Valid (.module (c.stripMod o.items))

end Mockall.Spec
