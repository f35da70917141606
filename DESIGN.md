# Formal model of mockall: design

Source: `/repo` (asomers/mockall, pinned).  Everything below is about a Lean 4 model; the code
itself is neither built nor run.  Every model definition cites the file and lines it models.

Short names for files: `L` = `mockall/src/lib.rs`, `F` = `mockall_derive/src/mock_function.rs`,
`D` = `mockall_derive/src/lib.rs`, `S` = `mockall_derive/src/mock_item_struct.rs`,
`X` = `mockall_double/src/lib.rs`.

## 1. What is modelled

### Runtime (what the generated code does): `Verif/Rt`

The macros generate one fixed runtime per mocked function.  We model that runtime as total
functions over explicit state, function by function.

* A panic is a value (`Panic`, one constructor per panic site; `Panic.render` gives the message).
  Functions return `Except Panic α` **and** the new state, so the state after a caught panic is
  visible.
* `&mut`/interior mutability: the new state is returned.
* `std::sync::Mutex`: a value plus a poison flag.  Locking a poisoned mutex is a panic (`unwrap`).
  A panic while the guard lives sets the flag.
* `AtomicUsize`: `Nat` with explicit wrap at 2^64.  Plain `+`/`-` on usize panic on overflow (debug
  profile, which is what `cargo test` uses).
* Argument and result values: an arbitrary type `V`; an argument list is `List V`.
* User predicates: arbitrary functions which may panic.  User `FnMut` closures: arbitrary functions of
  (all previous arguments they were run with, the present arguments), which may panic.  This covers
  every deterministic closure whose state is private.
* `Fragile`: the registering thread's id; access from another id panics (that is the contract of the
  external crate `fragile`).  `Rt/Destructors.lean` repeats the destroying functions with the destructors of
  `Fragile` (contract: destroying it on another thread panics; `into_inner` on another thread panics while it owns
  the value, so the process aborts); there each operation of a program has a thread.
* `HashMap`: an association list; where the iteration order shows, theorems quantify over it
  (`Env.order`).
* Ghost state: identifiers of expectations and closures, and logs of dispatched calls and of closure
  runs.  No function of the model reads them to decide anything.

Layers: `Times` -> `Sequence` -> `Matcher`/`Rfunc` -> `Common`/`Expectation` -> `Expectations` ->
`GenericExpectations` (`Store`) -> mock object (`Obj`) -> static method with `Context` (`StaticFn`) ->
programs (`Sys`: objects, static methods and sequences, and a list of operations `Op`).

`Rt/Async.lean` adds futures of `async fn`s to programs (C77).

### Concurrency: `Verif/Conc`

* `Conc/Call.lean`: any number of threads call one instance method of a shared mock.  Each atomic
  operation or lock operation is one step.  A schedule is a list of decisions which call makes the next
  step.
* `Conc/Weak.lean`: the same machine with the orderings the code uses, `Relaxed`: a load sees any value that is not
  older than what its thread knows of.  Synchronisation by the test (joining a thread, ...) is a step of the schedule;
  `Spec/HappensBefore.lean` defines the relation it induces.
* `Conc/Nested.lean`: the same machine with arbitrary user code: what a predicate or closure answers is part of the
  schedule, and while it runs its thread may call methods, to any depth.
* `Conc/Static.lean`: any number of threads call, expect, checkpoint and drop contexts of one static
  method.  The mutex around the store, the poison flag and each operation under the lock are separate
  steps.
* `Conc/StaticNested.lean`: any number of static methods, with arbitrary user code as in `Conc/Nested.lean`.
* `Conc/StaticMany.lean`: any number of static methods, one step of `Conc/Static.lean` at a time, with shared sequences.
* `Conc/Mixed.lean`: objects and static methods together, with arbitrary user code that may use both.

### Code generation: `Verif/Derive`

The transformations of `mockall_derive` and `mockall_double` as functions on an abstract syntax of types,
paths, bounds, generics, signatures, attributes, visibilities and use trees; `compile_error` and panics of
the macro are `Except.error`.  `Struct.lean` and `Module.lean` give the items that are generated (modules,
structs with their fields, impls, functions and the statements of `checkpoint`) with their attributes.
`Mockable.lean` is the front end: from a trait, an `impl` or the argument of `mock!` to what is mocked, and the
macros as the composition of both.  `Relay.lean` follows the arguments of a
call through the generated functions, as far as names in scope decide (C76).  `Scopes.lean` lists the pieces of
the generated code that mention types of the user, with the generics around them (C79).  `Auto.lean` has the types of
all fields of generated structs and enums, as far as `Send` and `Sync` depend on them (C94); `Used.lean` has the types of
the user in them (C95).  `MessageNames.lean` has
the texts that messages begin with (C82).  `Spec/Exec.lean` gives the generated items of a struct a meaning, as programs over
the runtime, and C72 connects the two halves of the model; `Spec/Program.lean` does this for programs with any number of
mock structs and mock modules (C83).

### Specifications: `Verif/Spec`

What the theorems are stated with: counts permitted by a `times` argument, the last-of-a-kind reading of
builder chains, a list-scan specification of a method, a reference semantics of whole programs (`Reference.lean`, C84), the language of a sequence, what a path denotes in a
module tree, what a type dereferences to, replacement of a name in a syntax tree, the names bound by a use
tree, the scope of a visibility, a small semantics of generated `checkpoint`s, and so on.  They do not use the
model's functions.

## 2. What is not modelled

* The Rust type checker (but for the scope of lifetimes and type parameters, C79, the arguments of generated types, C91, `Send` and `Sync`, C94, and unused parameters, C95), token streams, hygiene, spans, doc output, `syn` parsing.
* Weak memory beyond relaxed atomics with views (`Conc/Weak.lean`): executions in which a load reads from a write
  that comes later in the interleaving (load buffering) are not covered.  C35-C39 are about sequentially consistent
  executions; C74 restates them for relaxed ones.
* Outside `Conc/Nested.lean`, `Conc/StaticNested.lean` and `Conc/Mixed.lean`, predicates and closures that call mocks, diverge, or communicate through shared state.
  There (C75) they may, except closures of methods that return `&mut`; locking a mutex that the same thread holds is
  waiting for ever.
* The external crates `predicates`, `predicates-tree`, `downcast`, `fragile` beyond the contracts stated
  above.  The text a predicate prints is a parameter.
* Memory and time.  Destructors of user values, and of closures other than single threaded ones, do not panic.
* In the generator: variadics of signatures, function bodies other than the places they use, supertraits,
  generic associated types and constants, the text that `Debug` prints.

## 3. Properties and how they are proved

P = proved, partial = part proved, with the missing part refuted by a witness unless said otherwise.

| id | status | model | proof |
|----|--------|-------|-------|
| C01 | P | `Times.call`, `Expectations.call`, programs | induction on the number of calls; in programs from the invariant count = dispatched calls |
| C02 | P | `Common.drop` | invariant `sysInv_run`, verdict from `permits` |
| C03 | partial | `TimesRange.from` | case analysis against Rust range membership; false at `..0` and at usize::MAX |
| C04 | P | `Times.default` | from C01/C02 with max = usize::MAX - 1 |
| C05 | P | builder operations as a list | fold; last-of-kind function |
| C06 | P | `Expectations.call` vs. a list scan over use counters | simulation by induction over histories |
| C07-C11 | P | same, programs | corollaries, inductions; C11 by a simulation between the two stores |
| C12 | P | `Matcher.matches` | list induction |
| C13-C18 | P | `Rfunc` in programs | history invariants over the ghost log |
| C19-C23 | P | `Common.call` with the heap of sequences | global invariant over programs; exact language by induction |
| C24, C25, C27 | P | `Obj.checkpoint`, `Obj.drop` | equations for dropping a list of expectations; behavioural equality |
| C26 | partial | `Obj.drop`, `Context::drop`, destructors | any state; refuted for single threaded closures on a foreign thread |
| C28-C29 | P | generic store | projection; permutation invariance |
| C30-C34 | P | static store, contexts, poison flag | state machine invariants |
| C35, C36, C38, C57 | P | `Conc/Call` | inductive invariants over all schedules; measure for termination |
| C37 | partial | `Conc/Call` | invariant; two overlapping calls refute the rest; for all calls under the hypothesis that no two calls compete for the last place of one expectation (`Props/ConcSpillApart.lean`) |
| C39 | partial | `Conc/Call` | invariant for members with `times(1)`; false for `times(2)`; for larger counts the same under the hypothesis that calls to one member do not overlap (`Props/ConcSeqApart.lean`) |
| C40 | P | `Conc/Static` | every schedule is simulated by the sequential program in order of lock acquisition |
| C41 | partial | `supersuperfy`, `build` | meaning of paths in a module tree, structural induction |
| C42, C43, C51 | partial | `deselfify`, `deanonymize`, `substitute_type` | equal to a separate replacement function, structural induction |
| C44 | partial | `destrify`/`dedynify`/`ownify` | deref-target relation, case analysis |
| C45, C46 | partial | `split_lifetimes`, `merge_generics` | list reasoning |
| C47 | partial | `AttrFormatter` | filter against a list of documented kinds |
| C48 | partial | `mock_usetree` | names bound by a use tree, induction |
| C49 | partial | `expectation_visibility`, `build`, `MockItemStruct` | scope of a visibility in a module tree; the functions of the generated code have it |
| C50 | partial | `declosurefy` | list reasoning |
| C52 | P | `MockItemStruct`, `MockTrait` | semantics of the generated items under every cfg |
| C53 | partial | `gen_keyid`, `Builder::build` | injectivity; closure parameters are not in the key |
| C54 | partial | `Builder::build` | case analysis; what holds in full is C59 |
| C55 | partial | `Panic.render`, programs | containment of strings; classification of all panics of an operation |
| C56 | P | `checkpointModule` | induction over the functions of a module |
| C58 | P | `mock_itemtype` | case analysis |
| C59, C60 | P | `Builder::build` | inversion of `build` |
| C61 | partial | `concretize_args`, `Builder::build` | invariant of the map of types; inversion of `build` |
| C62, C63 | partial | `MockableModule`, `MockItemModule` | correspondence of the kept functions with the generated items, list induction |
| C64 | partial | `add_lifetime_parameters` | relation between types that only adds lifetimes, structural induction |
| C65 | partial | `substitute_trait`, `mockable_trait`, `MockItemStruct`, `MockTrait` | composition of the passes, item by item |
| C66 | partial | `gen_mock_ident`, `mock_ident`, `MockableModule` | the struct or module declared is the one imported |
| C67 | partial | both front ends | the definition built by one is that built by the other, up to attributes that do not matter |
| C68 | proved | `has_new`, `new_method`, `default_inits` | which functions the `impl`s have; fields and initialisers, per configuration |
| C69 | proved | `derives_debug`, `debug_impl`, `AttrFormatter` | the `Debug` items among the generated ones |
| C70 | partial | `MockableStruct::parse`, `mockable_item_impl`, `MockItemStruct`, `MockTrait` | composition of the passes, item by item |
| C71 | partial | `MockableStruct::from(ItemImpl)`, `substitute_item_impl`, `MockItemStruct`, `MockTrait` | composition of the passes, item by item |
| C72 | proved | the items generated for a struct, executed (`Spec/Exec.lean`), against `Rt/System.lean` | simulation: objects as maps from field paths to stores; uniqueness of fields, drop order and checkpoint order from what `rustc` accepts |
| C73 | P | `Rt/Destructors.lean` | the outcome of a row of destructors as a function of the panics they would raise; invariant of programs that relates what an expectation holds to its builder calls |
| C74 | P | `Conc/Weak.lean` | invariants of the view machine: histories of counts and levels, what each thread knows of them; the steps of `Conc/Call.lean` on the memory as the thread sees it |
| C75 | P | `Conc/Nested.lean` | a step is a step of `Conc/Call.lean` with user code replaced by its answer, so its invariants carry over; the calls of a thread form a stack, and a chain of waiting calls descends in rank |
| C76 | partial | `Derive/Relay.lean`: the functions a call goes through, each as parameters, local variables and expressions passed on | lookups in scopes; the names `build` keeps, argument by argument; a witness for captured names |
| C77 | P | `Rt/Async.lean`: programs that make, poll and drop futures | simulation by the program without futures, with the history of uses as the invariant |
| C78 | P | `Conc/StaticNested.lean` | invariants: who is inside holds the lock, operations of a thread form a stack, counts agree with the record of calls; a set of operations that wait for each other is closed under steps; a lexicographic measure of what is left, and descent along ranks |
| C79 | P | `Derive/Scopes.lean` | each piece of generated code with the generics around it and the types in it; what the generics declare follows from C45 and C46, and each type in the code is traced back to the signature, by structural induction on types |
| C80 | partial | `MockTrait::ss_name_priv` | unique reading of the joined name, by induction on the segments |
| C81 | proved | `expectation_obj`, `field_definition`, `MockTrait::trait_impl` | the generics of `Expectation` followed through `build`; pointwise instances of the field's type |
| C82 | proved | `funcname`, `desc`, `Builder::struct_`, `Builder::parent`, with the runtime | the module of every store and static function belongs to its method or function; C72, C83 and C55 for the rest |
| C83 | proved | all mocks of a program: expanded structs and modules with their run-time meaning | simulation: each mock is embedded in the runtime's state, and operations on one leave the others as they are; C72 for structs, C62 for modules |
| C84 | proved | whole programs against the reference semantics of `Spec/Reference.lean`, which has no locks, atomics, hash maps, return function states or scans | simulation: each expectation of the runtime corresponds to its chain and history; verification orders of hash maps are orders of the keys; without generic methods the reference is a function |
| C85 | proved | the concurrent machine, started on the mocks of a program state, against the sequential machine; `Spec/Linear.lean` says when a memory is a program state and when calls are independent | a call that runs alone does what the sequential call does; steps of independent calls neither read nor write what the other uses; invariant: each unfinished call, run alone from here, ends as predicted |
| C86 | proved | one machine in which threads call methods of objects and use static methods, and user code of either may begin operations on both (`Conc/Mixed.lean`); `Spec/Mixed.lean` says what waiting, deadlock and a ranking are | the invariants of C75 and C78 hold side by side, since a step of one kind leaves the locks and user code of the other alone; a level function turns a ranking into one that decreases along waiting; lexicographic measure |
| C87 | proved | the machine of C86, where sequences are shared by objects and static methods; `Spec/MixedOrder.lean` says what the members of a sequence and finished places are | the lock of a static method covers count, check and advance, so the place is still current at the advance; one invariant joins C39's for objects with the hits recorded for static methods |
| C88 | proved | the machine of C40 with drops of a `Context` by panicking threads; `Spec/Unwind.lean` says what the two parts of such a drop are in a sequential program | as C40, with an order of effects; a clear while the lock is held is placed just before the holder, where the flag is already clear |
| C89 | proved | any number of static methods with a mutex each and shared sequences (`Conc/StaticMany.lean`); `Spec/StaticMany.lean` says what the operations and their order are | forward simulation; a call takes effect at the step that settles its verdict, which is not the order of locking; handles of a sequence are unique across methods, so the current place cannot be left by others before its own advance; a statement that adds to sequences takes effect when the expectation is pushed, the sequential program being ahead in the numbers of joined expectations until it is over; completion: lexicographic measure of the steps before and after the mutex, together with progress |
| C90 | proved | the entry points of the macros, with parsers as parameters (`Derive/Entry.lean`); `Spec/Entry.lean` says which type counts and what the output consists of | case analysis; substitution depends only on what is looked up (mutual induction over types) |
| C91 | proved | the pieces of generated code of `Derive/Scopes.lean`: what each declares and which types it uses; `Spec/Mentions.lean` says when arguments fit and when bounds are granted | the bounds of merged generics are those of the parts (C46), split generics keep them (C45); each piece of code in turn |
| C92 | proved | the items of `Derive/Struct.lean` after `cfg` (`Config.strip`); `Spec/NamesApart.lean` says what the user must respect, in terms of the definition | each list of names is a sublist of names made from the definition; these are distinct by injectivity of the ways names are made |
| C93 | partial: the signature changes, contrary to the documentation | `deimplify`, the passes of `Derive/Mockable.lean` around it, and `build` | what `deimplify` makes is a path, which `build` leaves owned and unboxed; `Returns` (spec) says when it is pinned, `MeansSame` what its types mean |
| C94 | proved | the fields of all generated structs and enums (`Derive/Auto.lean`); the rules for `Send` and `Sync` as an inductive relation (`Spec/Auto.lean`) | inversion of the rules, from the fields upwards |
| C95 | proved | the types in the fields of all structs and enums (`Derive/Used.lean`, `phantomFields` in `Derive/Struct.lean`); what it is to use a parameter (`Spec/Used.lean`) | cases over the types; parameters through `split_lifetimes` and `merge_generics` |
| C96 | proved | whole programs (`Rt/System.lean`) and the part of a program (`Spec/Separate.lean`) | a relation between the reference semantics (C84) of the program and of its part, kept by every operation: equal on the chosen mocks and their sequences |
| C97 | proved | whole programs (`Rt/System.lean`) and `Spec/Forget.lean` | the relation of C96 up to the checkpoint, together with: the object is as new in the second program; from there on the relation for all mocks |

## 4. Where the code differs from what one would expect

Each of these is a theorem or an example of the model (name in brackets), found while proving.

Runtime:

* `times(..0)` is accepted and behaves like `times(0)`; no range permits the count usize::MAX
  [C03_empty_to, C03_false_at_max].
* A call rejected by `Sequence` still counts for its expectation [C19 examples].
* An expectation placed twice in a sequence leaves a gap that is never filled [C20, C21 examples].
* `times(0)` in a sequence blocks it for ever [C23_blocked].
* Two overlapping calls may both find the same expectation with room for one; the second panics although the
  next expectation would have taken it [C37_refuted].
* Two overlapping calls to a member with `times(2)` may advance its sequence twice [C39_refuted].
* Atomics are `Relaxed`: without synchronisation between the callers a call made after all earlier members of its
  sequence have returned may be rejected, and a call made after an expectation is exhausted may still be rejected by it
  instead of going to the next one [C74_unsynchronised_sequence, C74_unsynchronised_overflow].
* A predicate or closure is run under the mutex of its expectation.  A predicate that calls the method whose first
  expectation it belongs to waits for itself, a closure never gets an answer from its own expectation, and closures
  that call each other's methods on two threads deadlock [C75_reentry_first, C75_reentry_closure, C75_deadlock].
* The lock of a static method is held while predicates, closures and the arguments of builder calls are evaluated: all
  of these wait for ever if they use this method, as in `ctx.expect().return_const(foo())` [C78_self], and two
  threads deadlock if each is in user code of one method and needs the other [C78_cycle].
* After the closure of an owned-result expectation panicked, later calls panic with a poison error
  [C13_panicked]; the same after the missing-return-value panic.
* Poison of a static generic method crosses instantiations [C28 example].
* A Context dropped normally while the lock is poisoned panics and leaves the expectations [C31_poisoned].
* A Context dropped by a panicking thread clears the poison flag before taking the lock; a call in between can
  poison it again, and then nothing is cleared [C40_unwinding_refuted].
* A mock that holds a closure of `withf_st` or `returning_st` and is destroyed on another thread panics, and aborts the
  process if the thread is panicking, an expectation is unsatisfied or there are two such closures [C26_refuted,
  C73_unmet, C73 examples].  A foreign call to `return_once_st` aborts [C73_once].
* `Backwards range`, the `in_sequence` assertion and `PoisonError` name no function [C55_refuted].

Generator:

* `super` is not adjusted in array lengths, `impl Trait`, arguments of inner segments and after `self::`; names
  such as `Range`, `Mutex`, `Box` are captured by imports of the generated module [C41_*].
* `Self` survives in `fn(..)` and `Fn(..)` arguments; const generics with `Self` hit `unimplemented!` [C42_*].
* `'_` survives in type arguments of paths [C43_anonymous_survives].
* `&(dyn A + Send)` and `&::std::path::Path` stay unsized; a user type named `Path` is replaced [C44_*].
* Lifetimes used only in `Fn(..)` arguments or in a typed receiver are dropped, const parameters and where
  clauses without type parameters too; `T: 'a` can mention a lifetime that is not declared [C45_*].
* Bounds of a lifetime declared in both lists are lost from the second; `for<'a>` binders can be doubled [C46_*].
* A `cfg_attr` that merely mentions the text `concretize` is removed [C47_lost].
* An argument called `no_match_msg` is hidden by a variable of the mock function, one called `desc` by a variable of
  the expectation in methods that return `&mut`.  Most such code does not compile, but in a concretized method with
  `no_match_msg: P`, `P: AsRef<Path>`, the mock gets the text of a panic message instead of the argument
  [C76_captured and example].
* `use foo::{self}` becomes `mock_self as self`; raw identifiers lose their `r#` [C48_*].
* `pub(self)` and `pub(in self::..)` become invalid paths [C49_self].
* Bounds on a closure parameter from another list and the `for<..>` of a where clause are lost, nested uses of it
  keep a parameter that was removed [C50_*].
* `Self::T` survives in bounds of associated types [C51_assoc_survives].
* A trait implemented twice for different arguments uses the stores of the first copy; a method that copy lacks
  has code that does not compile [C52_missing].
* Instantiations of closure parameters share one store [C53_closures_share]; a key of lifetime parameters only
  is not valid code [C53_lifetime_only].
* The kind of expectation follows the returned reference, not the receiver [C54_receiver_ignored].
* `#[concretize]`: of several lists of bounds for one parameter only the last is used; `&F` with `F: FnMut` is given
  code that does not type check; `F: Send + FnMut()` becomes a shared reference; `&'a T` and `Option<T>` keep a
  parameter that is not in scope [C61_*].
* A `#[cfg]` on an extern block is dropped: its functions are mocked in every configuration [C62_block_cfg].  So is
  any attribute of the module but its documentation [C62_attrs_ignored].
* Mocks of functions in `extern {}` and `extern "system" {}` blocks and of `extern "C" fn` items abort the process
  instead of panicking [C63_abort]; only a written `extern "C"` block is changed to `C-unwind`.
* `Option<&dyn T>` keeps the elided lifetime; `(&dyn A, &dyn B)` declares one lifetime twice; `&(T)` and other
  parenthesised types are refused [C64_*].
* A `#[cfg]` written below `#[automock]` is not copied to `impl Default`, `impl Debug` and the inherent `impl` of the
  mock [C65_cfg_dangling].
* `#[double]` of a type that begins with a lower case letter, or of a module that begins with an upper case one,
  imports a name that does not exist [C66_*].
* Contrary to its documentation, `new` is not generated when only a trait has a method of that name; nor when the
  method called `new` is not compiled [C68_*].
* In `mock!`, `Self` in an `impl` for `Foo<u32>` becomes the generic `MockFoo<T>` [C70_self], and `impl !Tr` is taken
  for `impl Tr` [C70_negative].
* Lifetimes.  The code generated for these signatures uses `'a` where it is not declared: `foo<'a>(&self, x: X<'a>) -> X<'a>`
  (documented); `foo<'a, T: 'static>(&self, t: T, x: &'a str)`, so also a generic method with an argument `&dyn Trait`, to
  which the macro adds a lifetime; `foo<'a>(&mut self, x: &'a str) -> &mut u32`; `foo<'a>() -> X<'a>`;
  `foo(&self) -> &'a u32` where `'a` is of the struct; `foo<'a, T: 'static>(&self, t: T) -> &X<'a>`; and
  `foo<'a>(&self, x: Box<dyn Fn(&'a str)>)` [C79_undeclared].  Likewise any `T: Tr<'a>` [C79_bound_by_lifetime].  For
  `foo<'b, 'a: 'b>(&self, x: &'a str)` it has `for<'a: 'b>`, which is not valid [C79_bounded_lifetime].  With
  `#[concretize]` every lifetime of the function itself is undeclared [C79_concretize].
* A mock of the traits `A::B` and `A__B`, or `A<T>::B` and `A::B<T>`, has two structs of the same name [C80_names_clash].
* Static and generic methods of `impl Tr for Foo<u32>` or `impl<X> Tr for Foo<X>`, in the mock of a struct `Foo<T>`, use the `T` of the struct where it is not declared [C81_scope, C81_inhabited].
* In the mock of a struct with a lifetime, `impl<'a> Tr for Foo<'a>` gives setters that return an `Expectation` with one argument too many; likewise for const parameters [C81_instance, C81_lifetime].
* Messages do not name the trait: methods of the same name of a struct and of two of its traits give the same messages [`funcname`, C82].  The messages of expectations on functions of modules have the name of the function only, without that of the module [`funcname`].
* `#[automock] impl<T> Tr<T> for Foo` gives code that does not compile [C71_unapplied].
* Contrary to the documentation, a method that returns `impl Trait` has another signature in the mock: it returns
  `Box<dyn Trait>`, too [C93_signature_changes].  In `impl Debug + '_` the anonymous lifetime stays [C93_anonymous].

## 5. Trusted base

* The Lean 4.33.0 kernel.  No axiom is declared; no `sorry`, `native_decide` or `bv_decide`.
* Axioms: every theorem in MANIFEST.json depends on at most `propext`, `Classical.choice` and `Quot.sound`
  (`#print axioms`; vcheck reports the same).  Section 6 lists them one by one.
* The reading of the Rust source recorded in the comments of the model, and the simplifications named there.
* The contracts of std and of external crates listed in sections 1 and 2.

## 6. Axioms of each theorem

As printed by `#print axioms`; the full names are in MANIFEST.json.

* `Classical.choice`, `Quot.sound`, `propext`:
  C01_ceiling, C01_ceiling_const, C01_ceiling_program, C01_never_more, C02_verdict, C02_message,
  C03_denotation_partial, C03_backwards, C04_unlimited, C06_refinement, C06_program, C07_no_match,
  C07_match, C08_never, C08_skip, C09_frame, C10_staircase, C12_conjunction, C12_panic, C13_returning,
  C13_returning_mut, C13_panicked, C13_only, C14_const, C14_const_st, C15_first, C15_later,
  C15_at_most_once, C16_stable, C16_nightly, C17_var, C17_fresh, C18_runs, C18_foreign, C18_withf_st,
  C19_complete, C19_before, C19_after, C19_observed, C20_language, C20_members, C21_exact, C21_next,
  C21_kept, C21_positions, C21_handle, C22_refinement, C22_independent, C23_blocked, C23_observed,
  C24_verdict, C24_clears, C24_like_new, C25_first, C25_message, C27_failing, C27_counts, C28_projection,
  C28_same, C28_alone, C29_method, C30_static, C31_blank, C32_call, C32_reached, C32_release, C33_verdict,
  C33_clears, C35_count, C35_verdict, C36_ceiling, C36_exact, C37_partial, C37_norace_partial,
  C37_apart_partial, C38_exclusive, C38_once, C38_history, C39_order_partial, C39_accept_partial,
  C39_counts_order_partial, C39_counts_accept_partial, C40_linearisable, C40_progress,
  C41_relative_paths_partial, C41_generics_partial, C41_output_partial, C41_args_partial,
  C41_call_generics_partial, C41_struct_partial, C41_module_partial, C41_captured_names,
  C42_self_replaced_partial, C42_self_replaced_args_partial, C44_sized_partial, C45_split_partial,
  C45_unused_dropped, C46_where, C46_where_lifetimes_partial, C46_lifetime_bounds_lost, C46_attrs,
  C46_defaults, C47_filter_partial, C47_sound, C47_lost, C47_struct_partial, C47_trait_partial,
  C47_definition_partial, C47_module_partial, C48_double_partial, C48_rejected, C48_self, C48_raw,
  C49_scope_partial, C49_self, C49_build_partial, C49_struct, C49_modules_partial, C49_module_partial,
  C50_two_rejected, C52_checkpoint, C52_instance, C52_static, C52_trait, C52_trait_static, C52_unshared,
  C52_missing, C53_keys_partial, C53_closures_share, C61_one_store, C54_kind_partial, C59_static_rejected,
  C55_call_partial, C55_verify_partial, C55_refuted, C57_progress, C57_completes, C58_type_alias,
  C58_type_rejected, C59_kind, C60_args, C61_concretize_partial, C61_left, C61_struct_partial,
  C61_module_partial, C62_module_partial, C62_rejects, C62_attrs_ignored, C62_block_cfg,
  C63_foreign_partial, C63_abort, C64_explicit_partial, C64_distinct, C64_total, C65_automock_trait_partial,
  C65_cfg_dangling, C66_names_partial, C66_lower_type, C66_upper_module, C67_handwritten_partial, C68_new,
  C68_default, C68_trait_new, C68_cfg_new, C69_debug, C69_derives, C69_automock, C70_mock_partial, C70_self,
  C70_negative, C71_inherent_partial, C71_trait_partial, C71_unapplied, C72_behaves, C72_object,
  C72_instance, C72_trait, C72_static, C73_home, C73_drop, C73_checkpoint, C73_context,
  C73_unwinding_object, C73_unwinding_context, C73_unmet, C73_once, C74_includes, C74_count, C74_verdict,
  C74_ceiling, C74_exact, C74_exclusive, C74_once, C74_history, C74_order, C74_accept, C74_overflow,
  C75_includes, C75_count, C75_verdict, C75_ceiling, C75_exact, C75_exclusive, C75_once, C75_order,
  C75_order_entered, C75_accept, C75_progress, C75_completes, C75_reentry_predicate, C75_reentry_first,
  C75_reentry_closure, C76_closure_partial, C76_withf_partial, C76_with_partial, C76_message,
  C76_sequence_message_partial, C76_ref, C76_captured, C77_polled, C77_unpolled, C78_terminates, C78_waits,
  C78_progress, C78_completes, C78_count, C78_ceiling, C79_types, C79_stored, C79_lifetimes,
  C79_bounded_lifetime, C79_bound_by_lifetime, C79_concretize, C79_concretize_types, C80_names_partial,
  C80_plain_names_partial, C80_paths_partial, C80_paths_clash, C81_instance, C81_scope, C81_lifetime,
  C81_inhabited, C81_lifetime_inhabited, C82_call, C82_static, C82_verify, C82_verify_static, C82_inhabited,
  C82_verify_inhabited, C82_program_call, C82_program_static, C82_program_verify, C82_program_verify_static,
  C82_module, C82_module_verify, C82_module_checkpoint, C82_module_inhabited, C83_behaves, C83_module,
  C83_checkpoint, C84_reference, C84_exact, C84_generated, C85_linear, C85_completes, C85_serial,
  C85_shareable, C85_inhabited, C86_count, C86_verdict, C86_ceiling, C86_static_count, C86_static_ceiling,
  C86_exclusive, C86_waits, C86_deadlock, C86_reentry, C86_cross, C86_progress, C86_completes,
  C86_terminates, C86_asks_user, C86_call_asks, C86_op_asks, C87_order, C87_sorted, C87_exact, C87_entered,
  C87_objects_first, C87_before_object, C87_accept, C87_advance, C87_accept_object, C88_two_effects,
  C88_progress, C88_no_abort, C89_linearisable, C89_complete, C89_after, C89_completes, C90_keeps, C90_mock,
  C90_order, C90_types, C90_refuses, C90_others, C91_types, C91_call, C92_struct, C92_inherent, C92_clashes,
  C92_inherent_clashes, C92_module, C92_module_clashes, C93_method_partial, C93_trait_partial, C93_function,
  C93_signature_changes, C94_struct, C94_cfg, C94_function, C94_generic, C94_static, C94_context,
  C94_sequence, C94_given, C94_inhabited, C94_cfg_inhabited, C95_types, C95_methods, C95_lifetimes,
  C95_method_lifetimes, C95_struct, C95_method_inhabited, C95_guard_unused, C95_methods_inhabited,
  C96_alone, C96_interleaved, C96_generic, C96_generated, C96_inhabited, C96_interleaved_inhabited,
  C96_shared, C97_forgotten, C97_context, C97_inhabited, C97_context_inhabited.
* `Quot.sound`, `propext`:
  C03_accepted, C03_false_at_max, C05_last_wins, C05_commute, C11_swap, C12_own_argument, C12_withf,
  C18_withf_st_unused, C26_no_abort_partial, C29_order, C29_static, C31_poisoned, C32_until, C32_expect,
  C33_poisoned, C41_total, C41_not_rewritten, C41_self_super, C41_captured, C41_captured_names_inhabited,
  C42_self_total, C43_deanonymized_partial, C43_total, C44_owned_derefs_partial, C44_plain_unchanged,
  C44_static_unchanged, C44_unsized, C44_own_path, C45_no_params, C45_total, C46_params, C46_bounds,
  C46_lifetimes_partial, C46_bound_twice, C50_closures_partial, C50_total, C50_bounds_lost, C50_for_lost,
  C50_escapes, C51_assoc_substituted_partial, C51_no_self_unchanged, C51_total, C51_assoc_survives,
  C53_total, C53_lifetime_only, C54_receiver_ignored, C55_args, C56_module, C57_bounded, C61_total,
  C61_overwritten, C61_ref_fnmut, C61_fnmut_second, C64_angle, C75_deadlock, C75_self, C76_each, C77_ready,
  C78_exclusive, C78_deadlock, C78_self, C78_builder, C78_cycle, C79_undeclared, C81_total,
  C86_includes_objects, C86_includes_static, C88_adjacent, C89_progress, C89_owned, C93_anonymous,
  C93_inhabited.
* `propext`:
  C03_empty_to, C09_others, C12_nullary, C26_object_partial, C26_context_partial, C26_refuted, C31_verdict,
  C34_object, C37_refuted, C39_refuted, C40_unwinding_refuted, C42_self_survives, C42_const_rejected,
  C43_anonymous_survives, C45_dropped, C45_consts_dropped, C45_escapes, C51_assoc_direct, C64_hidden,
  C64_declared_twice, C64_rejected, C74_unsynchronised_sequence, C74_unsynchronised_overflow,
  C80_names_clash, C85_overlap_refuted, C97_failed, C97_sequence, C97_poisoned.
