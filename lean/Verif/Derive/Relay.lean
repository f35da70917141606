import Verif.Derive.Struct

/-! # How arguments travel through the generated functions

A call of a mocked function goes through a chain of generated functions, from the function itself to the
closure or predicate of an expectation.  Each of them binds its parameters, which have the names that the user
gave to the arguments, and some variables of its own, and passes on expressions with these names.  The names
come from `quote!`, so they are not hygienic: a variable of the macro hides an argument of the same name. -/

namespace Mockall.Derive

/-- What the variables of the generated code hold. -/
inductive Internal
  /-- `no_match_msg`, the text `MockFoo::foo(..): No matching expectation found`. -/
  | message
  /-- `desc`, the description of the matcher. -/
  | description
  /-- `__mockall_guard`, the guard of the static expectations. -/
  | guard
  /-- `__mockall_e`, an expectation, or the expectations for one choice of the generic parameters. -/
  | expectation
  /-- `__mockall_f`, a closure or function of the user. -/
  | closure
  /-- `__mockall_pred`, the predicates of the user. -/
  | predicates
  /-- `__mockall_o`, the place of the return value. -/
  | place
  deriving DecidableEq

/-- What is passed on, made from what the caller of the mock passed (`V`) or from a variable. -/
inductive Thing (V : Type)
  | given (v : V)
  | box (t : Thing V)
  | ref (isMut : Bool) (t : Thing V)
  /-- A slice with references to the elements of a slice. -/
  | refs (t : Thing V)
  | internal (i : Internal)
  deriving DecidableEq

/-- The variables in scope, innermost first. -/
abbrev Scope (V : Type) := List (Ident × Thing V)

/-- Expressions: `x`, `Box::new(e)`, `&e` or `&mut e`, and the slice of references to the elements of `e`. -/
inductive Ex
  | var (x : Ident)
  | boxNew (e : Ex)
  | ref (isMut : Bool) (e : Ex)
  | refs (e : Ex)
  deriving DecidableEq

/-- The value of an expression. -/
def Ex.eval {V : Type} (ρ : Scope V) : Ex → Option (Thing V)
  | .var x => ρ.lookup x
  | .boxNew e => (e.eval ρ).map .box
  | .ref m e => (e.eval ρ).map (.ref m)
  | .refs e => (e.eval ρ).map .refs

/-- A generated function that passes on its arguments: its parameters (without `self`), the variables that
it binds later, in this order, and the arguments of the function that it calls then. -/
structure Relay where
  params : List Ident
  locals : List (Ident × Internal)
  exprs : List Ex

/-- The scope in which the arguments are evaluated. -/
def Relay.scope {V : Type} (r : Relay) (args : List (Thing V)) : Scope V :=
  (r.locals.map fun x => (x.1, Thing.internal x.2)).reverse ++ (r.params.zip args).reverse

/-- What the function passes on when it is called with `args`. -/
def Relay.run {V : Type} (r : Relay) (args : List (Thing V)) : Option (List (Thing V)) :=
  if args.length = r.params.length then r.exprs.mapM (Ex.eval (r.scope args)) else none

/-- A chain of functions, each called by the one before it. -/
def relay {V : Type} : List Relay → List (Thing V) → Option (List (Thing V))
  | [], args => some args
  | r :: l, args => (r.run args).bind (relay l)

/-- The name a pattern binds; `Builder::build` accepts no other patterns. -/
def Pat.names : Pat → List Ident
  | .ident _ _ i _ => [i]
  | _ => []

/-- The names that the arguments of a signature bind. -/
def Sig.names (s : Sig) : List Ident :=
  s.inputs.flatMap fun | .typed _ p _ => p.names | .receiver _ _ _ _ => []

/-- An expression of `call_exprs`, D:205-221 and D:437-441. -/
def CallArg.ex : CallArg → List Ex
  | .boxed p => p.names.map fun x => .boxNew (.var x)
  | .plain p => p.names.map .var
  | .ref m p => p.names.map fun x => .ref m (.var x)
  | .slice p _ => p.names.map fun x => .refs (.var x)

/-- `argnames`, F:239. -/
def MockFn.argnames (f : MockFn) : List Ident := f.args.flatMap (·.name.names)

/-- `predexprs`, F:222 and F:232. -/
def MockFn.predexprs (f : MockFn) : List Ex :=
  f.args.flatMap fun a => a.name.names.map fun x => if a.byRef then .ref false (.var x) else .var x

/-- The functions that pass on their arguments, after binding `locals`. -/
def MockFn.pass (f : MockFn) (locals : List (Ident × Internal)) : Relay :=
  ⟨f.argnames, locals, f.argnames.map .var⟩

/-- The mocked function itself, F:538-577. -/
def MockFn.mockRelay (f : MockFn) : Relay where
  params := f.sig.names
  locals := ("no_match_msg", .message) :: if f.isStatic then [("__mockall_guard", .guard)] else []
  exprs := f.callExprs.flatMap CallArg.ex

/-- Are the expectations kept in a `GenericExpectations`?  F:737-744 for methods, F:1555-1640 for static
functions. -/
def MockFn.usesGeneric (f : MockFn) : Bool := if f.isStatic then f.isExpectationGeneric else f.isMethodGeneric

/-- `GenericExpectations::call`, F:2519-2530. -/
def MockFn.genericRelay (f : MockFn) : List Relay :=
  if f.usesGeneric then [f.pass [("__mockall_e", .expectation)]] else []

/-- `Expectations::call`, the closure of `map`, F:2434-2436; the other sorts are the same (F:2361-2363,
F:2399-2401). -/
def MockFn.expectationsRelay (f : MockFn) : Relay := f.pass [("__mockall_e", .expectation)]

/-- `Expectations::call`, the closure of `find`, F:2431-2433. -/
def MockFn.findRelay (f : MockFn) : Relay :=
  ⟨f.argnames, [("__mockall_e", .expectation)], f.predexprs⟩

/-- `Expectation::call`, F:2188-2195, and `call_mut`, F:2090-2103, which binds `desc` first.  The sort for
`&self` does not pass on the arguments, F:2031-2037. -/
def MockFn.expectationRelay (f : MockFn) : Relay :=
  if f.kind = .ref then ⟨f.argnames, [], []⟩
  else f.pass (if f.kind = .refMut then [("desc", .description)] else [])

/-- `Rfunc::call_mut`, F:1946-1985 and F:1856-1890; `Rfunc::call`, F:1788-1805, which has no arguments, in
methods that return `&T`. -/
def MockFn.rfuncRelay (f : MockFn) : Relay :=
  if f.kind = .ref then ⟨[], [("__mockall_o", .place)], []⟩
  else f.pass (if f.kind = .refMut then [("__mockall_f", .closure), ("__mockall_o", .place)]
    else [("__mockall_f", .closure)])

/-- `Expectation::matches`, F:1116-1122, and `Common::matches`, F:983-987. -/
def MockFn.matchesRelay (f : MockFn) : List Relay := [f.pass [], f.pass []]

/-- `Matcher::matches` with a function, F:1722-1725. -/
def MockFn.funcRelay (f : MockFn) : Relay := f.pass [("__mockall_f", .closure)]

/-- `Matcher::matches` with predicates, F:1676-1690. -/
def MockFn.predRelay (f : MockFn) : Relay := f.pass [("__mockall_pred", .predicates)]

/-- From the mocked function to the return closure. -/
def MockFn.toClosure (f : MockFn) : List Relay :=
  f.mockRelay :: (f.genericRelay ++ [f.expectationsRelay, f.expectationRelay, f.rfuncRelay])

/-- From the mocked function to the function given to `withf`. -/
def MockFn.toFunc (f : MockFn) : List Relay :=
  f.mockRelay :: (f.genericRelay ++ f.findRelay :: (f.matchesRelay ++ [f.funcRelay]))

/-- From the mocked function to the predicates given to `with`. -/
def MockFn.toPred (f : MockFn) : List Relay :=
  f.mockRelay :: (f.genericRelay ++ f.findRelay :: (f.matchesRelay ++ [f.predRelay]))

/-- The arguments that `desc` (F:632-643) prints in the message of a call that finds no expectation: they
are evaluated before `no_match_msg` is bound, F:548 and F:571. -/
def MockFn.descRelay (f : MockFn) : Relay :=
  ⟨f.sig.names, [], f.argnames.map fun x => .ref false (.var x)⟩

/-- The arguments that `desc` prints in the message of a sequence error: evaluated in `Expectation::call`
before any variable is bound, F:2094 and F:2187. -/
def MockFn.toDesc (f : MockFn) : List Relay :=
  f.mockRelay :: (f.genericRelay ++
    [f.expectationsRelay, ⟨f.argnames, [], f.argnames.map fun x => .ref false (.var x)⟩])

end Mockall.Derive
