import Verif.Derive.Auto
import Verif.Spec.Struct

/-! # `Send` and `Sync`

The rules by which Rust finds out whether a type is `Send` or `Sync`. -/

namespace Mockall.Spec

open Derive

/-- The two traits. -/
inductive AutoTrait | send | sync
  deriving DecidableEq

def AutoTrait.name : AutoTrait → Ident
  | .send => "Send"
  | .sync => "Sync"

/-- A program: its structs and enums, and which types of the user have the traits. -/
structure World where
  decls : List Decl
  user : AutoTrait → Ty → Prop

/-- The type has the trait. -/
inductive HasAuto (w : World) : AutoTrait → FTy → Prop
  | user {a t} (h : w.user a t) : HasAuto w a (.user t)
  /-- all fields of the struct or enum have it -/
  | item {a p} (d : Decl) (hd : d ∈ w.decls) (hp : d.path = p)
      (h : ∀ d ∈ w.decls, d.path = p → ∀ t ∈ d.fields, HasAuto w a t) : HasAuto w a (.item p)
  | both {a} : HasAuto w a (.std .both [])
  /-- these own their contents -/
  | owner {a n l} (hn : n ∈ [StdTy.tuple, .box, .option, .vec, .range, .hashMap, .phantomData])
      (h : ∀ t ∈ l, HasAuto w a t) : HasAuto w a (.std n l)
  /-- `T: Send` is enough for `Mutex<T>: Sync` -/
  | mutex {a t} (h : HasAuto w .send t) : HasAuto w a (.std .mutex [t])
  /-- a guard must be dropped where it was made -/
  | mutexGuard {t} (h : HasAuto w .sync t) : HasAuto w .sync (.std .mutexGuard [t])
  | onceSend {t} (h : HasAuto w .send t) : HasAuto w .send (.std .onceLock [t])
  | onceSync {t} (h : HasAuto w .send t) (h' : HasAuto w .sync t) : HasAuto w .sync (.std .onceLock [t])
  | arc {a t} (h : HasAuto w .send t) (h' : HasAuto w .sync t) : HasAuto w a (.std .arc [t])
  /-- the contents are accessible only to the thread that made it -/
  | fragile {a t} : HasAuto w a (.std .fragile [t])
  /-- the trait is written, or required by the trait written -/
  | dyn {a n l} (h : a.name ∈ l ∨ a.name ∈ superTraits n) : HasAuto w a (.dyn n l)

/-- The program uses mockall, and defines no type twice. -/
structure World.Ok (w : World) : Prop where
  lib : ∀ d ∈ libDecls, d ∈ w.decls
  unique : ∀ d ∈ w.decls, ∀ e ∈ w.decls, d.path = e.path → d.fields = e.fields

/-- The function `f` is mocked in the module `p` of the program. -/
structure World.Mod (w : World) (p : List Ident) (f : MockFn) : Prop extends World.Ok w where
  has : ∀ d ∈ f.decls p, d ∈ w.decls

/-- A program with the code generated for a mock. -/
structure World.Struct (w : World) (m : MockItemStruct) (items : List Item) : Prop extends World.Ok w where
  mods : ∀ d ∈ m.modDecls, d ∈ w.decls
  structs : ∀ i ∈ items, ∀ d, i.decl = some d → d ∈ w.decls

/-- A program with the part of a mock's code that is compiled in the configuration `c`. -/
structure World.Compiled (w : World) (c : Config) (m : MockItemStruct) (items : List Item) : Prop extends World.Ok w where
  mods : ∀ x ∈ m.methods, c.active (noDoc x.attrs) = true → ∀ d ∈ x.fn.decls [m.modname, x.innerMod], d ∈ w.decls
  subs : ∀ s ∈ m.substructs, c.active (noDocAsync s.attrs) = true → ∀ x ∈ s.methods,
    c.active (noDoc x.attrs) = true → ∀ d ∈ x.fn.decls [s.modname, x.innerMod], d ∈ w.decls
  structs : ∀ i ∈ c.strip items, ∀ d, i.decl = some d → d ∈ w.decls

/-- The trait is required of what the function returns: only if this is a reference, and if the function has no generic
parameters of its own. -/
def Requires (w : World) (a : AutoTrait) (f : MockFn) : Prop :=
  f.isMethodGeneric = false → f.kind ≠ .static → w.user a f.ownedOutput

end Mockall.Spec
