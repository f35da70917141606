{"id": "C01", "title": "Call-count ceiling", "statement": "With a single expectation on a method whose matcher accepts every call, `.times(spec)` lets exactly the first `max` calls through the count check; every later call panics, with `should not have been called` when max is 0 and otherwise with a message naming the call's ordinal and `max`.", "quantifier": "every count window min..max accepted by `times`, every number of calls up to usize::MAX", "why_tests_cant": "The ordinal at which the panic appears is a free parameter; tests use counts 1 to 4.", "anchors": ["mockall/src/lib.rs: Times::call", "mockall_derive/src/mock_function.rs: Common::call", "mockall_derive/src/mock_function.rs: StaticExpectations::call"]}
{"id": "C02", "title": "Verification verdict on drop", "statement": "Dropping (or checkpointing) an expectation outside of a panic succeeds iff the number of calls dispatched to it, including calls that themselves panicked for being too many, lies in the window given to `times`; otherwise it panics and the message names that exact number and the violated bound.", "quantifier": "every window, every history of calls (successful or panicking) dispatched to the expectation", "why_tests_cant": "Must hold for every call history including ones interrupted by caught panics.", "anchors": ["mockall_derive/src/mock_function.rs: Common Drop", "mockall/src/lib.rs: Times::is_satisfied, count, minimum, maximum"]}
{"id": "C03", "title": "`times` argument denotation", "statement": "`times(n)`, `times(a..b)`, `times(a..)`, `times(..)`, `times(a..=b)`, `times(..b)`, `times(..=b)` permit exactly the call counts contained in the Rust range they spell; a backwards `a..b`/`a..=b` panics immediately.", "quantifier": "every argument of each of the seven accepted forms, all usize values", "why_tests_cant": "Boundary values of usize (0 and MAX) in seven forms; the claim is false at some of them and tests use 1..4 only.", "anchors": ["mockall/src/lib.rs: TimesRange, From impls, Times::times, Times::never"]}
{"id": "C04", "title": "Unlimited by default", "statement": "An expectation with no `times` never rejects a call because of its count and is always satisfied at verification, for any history shorter than usize::MAX-1 calls.", "quantifier": "every number of calls", "why_tests_cant": "Unbounded number of calls.", "anchors": ["mockall/src/lib.rs: TimesRange::default, Times::any", "mockall_derive/src/mock_function.rs: Common::default"]}
{"id": "C05", "title": "Builder calls: last one of a kind wins", "statement": "The behaviour of a configured expectation depends only on the last `times`-like, last matcher and last return-value setter applied; the setters of different kinds commute, so their relative order is irrelevant.", "quantifier": "every finite sequence of builder calls on a fresh expectation", "why_tests_cant": "Quantifies over all builder-call sequences.", "anchors": ["mockall_derive/src/mock_function.rs: CommonExpectationMethods, Common::times/with/withf, StaticExpectation::returning..."]}
{"id": "C06", "title": "FIFO dispatch refinement", "statement": "For every history of `expect` and calls on one method, each call is answered by the earliest-added expectation whose matcher accepts the arguments and which has been used fewer times than its maximum; if there is none, the call panics.", "quantifier": "every list of expectations with arbitrary matchers and windows, every call history", "why_tests_cant": "Interaction of matchers, windows and order for all histories.", "anchors": ["mockall_derive/src/mock_function.rs: StaticExpectations::call, RefExpectations::call, RefMutExpectations::call_mut", "mockall/src/lib.rs: Times::is_done"]}
{"id": "C07", "title": "No matching expectation", "statement": "A call panics with `No matching expectation found` iff no expectation on that method both accepts the arguments and is unexhausted (a sole exhausted expectation instead reports its own over-call), and such a failed call changes no expectation, no sequence and no return-value state.", "quantifier": "every method state and arguments", "why_tests_cant": "All states; the no-effect part concerns every later call too.", "anchors": ["mockall_derive/src/mock_function.rs: MockFunction::call, StaticExpectations::call"]}
{"id": "C08", "title": "`never` and exhausted expectations step aside", "statement": "A `never()`/`times(0)` expectation is never the one answering a successful call; with two or more expectations it is skipped in favour of a later match, and an exhausted expectation among others never panics on its own.", "quantifier": "every list with at least two expectations, every history", "why_tests_cant": "All histories and positions.", "anchors": ["mockall/src/lib.rs: Times::never, is_done", "mockall_derive/src/mock_function.rs: StaticExpectations::call"]}
{"id": "C09", "title": "A call touches only its expectation", "statement": "A call that is dispatched to one expectation leaves every other expectation of the method (its count, matcher, return value) unchanged, and leaves every other method, every other mock object and every other sequence unchanged.", "quantifier": "every system of mock objects, every call", "why_tests_cant": "Frame property over all reachable states.", "anchors": ["mockall_derive/src/mock_function.rs: StaticExpectations::call", "mockall_derive/src/mock_item_struct.rs: MockItemStruct fields"]}
{"id": "C10", "title": "Staircase of exhausted expectations", "statement": "If expectations E1..En with the same accepting matcher allow k1..kn calls, then calls 1..k1 go to E1, the next k2 to E2, and so on; the call after the last one panics.", "quantifier": "every n and every k1..kn, every number of calls", "why_tests_cant": "Arbitrary n and counts.", "anchors": ["mockall_derive/src/mock_function.rs: StaticExpectations::call", "mockall/src/lib.rs: Times::is_done"]}
{"id": "C11", "title": "Order of disjoint expectations is irrelevant", "statement": "Adjacent expectations whose matchers never accept the same arguments can be declared in either order (with at least two expectations present) without changing the result of any call in any history.", "quantifier": "every list of at least two expectations, every pair of disjoint matchers, every history", "why_tests_cant": "All histories.", "anchors": ["mockall_derive/src/mock_function.rs: StaticExpectations::call"]}
{"id": "C12", "title": "`with` is the conjunction of the per-argument predicates", "statement": "`with(p1..pn)` accepts a call iff every pi accepts its own argument; it is equivalent to `withf` with the conjunction; with zero arguments it accepts every call; no predicate sees another argument.", "quantifier": "every arity, all predicates and arguments", "why_tests_cant": "Every arity and predicate.", "anchors": ["mockall_derive/src/mock_function.rs: Matcher::matches"]}
{"id": "C13", "title": "`returning` closures see exactly the calls of their expectation", "statement": "The i-th call answered by an expectation runs its closure exactly once with exactly that call's arguments and returns exactly its result; the closure's private state evolves only through those calls, in order.", "quantifier": "every stateful closure, every history interleaving several expectations and methods", "why_tests_cant": "History dependent closures, all interleavings.", "anchors": ["mockall_derive/src/mock_function.rs: StaticExpectation::call, StaticRfunc::call_mut"]}
{"id": "C14", "title": "`return_const` is constant", "statement": "Every call answered by an expectation configured with `return_const(v)` returns a clone of v, however many calls and whatever the arguments; for `&self` methods returning a reference it always refers to the same stored value.", "quantifier": "every value, history, arguments", "why_tests_cant": "Unbounded number of calls.", "anchors": ["mockall_derive/src/mock_function.rs: StaticExpectation::return_const, RefExpectation::return_const, RefRfunc::call"]}
{"id": "C15", "title": "`return_once` yields its value at most once", "statement": "The FnOnce closure of `return_once` is run at most once in any history, also when it panics, when the call fails a sequence or count check, or when the call comes from another thread; every later call answered by that expectation panics.", "quantifier": "every history of calls, including caught panics", "why_tests_cant": "Includes all failing histories.", "anchors": ["mockall_derive/src/mock_function.rs: StaticRfunc::call_mut, StaticExpectation::call"]}
{"id": "C16", "title": "Missing return value", "statement": "A call answered by an expectation with no return value set panics with the documented message on stable; with the nightly feature it returns the type's Default if there is one.", "quantifier": "every return type class, history and expectation kind", "why_tests_cant": "Feature x type x kind matrix over all histories.", "anchors": ["mockall/src/lib.rs: ReturnDefault", "mockall_derive/src/mock_function.rs: StaticRfunc, RefRfunc, RefMutRfunc"]}
{"id": "C17", "title": "`return_var` is a persistent variable", "statement": "For `&mut self` methods returning a reference, after `return_var(v)` each answered call yields the value last written through any earlier returned reference (or v); with `returning` each call yields the fresh result of the closure, whatever was written before.", "quantifier": "every interleaving of calls and writes", "why_tests_cant": "All read/write histories.", "anchors": ["mockall_derive/src/mock_function.rs: RefMutRfunc::call_mut, RefMutExpectation::call_mut"]}
{"id": "C18", "title": "Single-threaded closures never run on a foreign thread", "statement": "A closure given to `withf_st`, `returning_st`, `return_const_st` or `return_once_st` is never executed on a thread other than the one that registered it; a call that would need it panics instead.", "quantifier": "every history with arbitrary calling threads", "why_tests_cant": "All thread assignments and histories.", "anchors": ["mockall_derive/src/mock_function.rs: Matcher FuncSt, StaticRfunc MutSt/OnceSt, RefMutRfunc MutSt"]}
{"id": "C19", "title": "Sequence order safety", "statement": "If a call to an expectation placed k-th in a Sequence returns normally, then each of the k-1 earlier placed expectations has already received its full call count; after the (k+1)-th has been called, no further call to the k-th can succeed.", "quantifier": "every number of sequences, mocks, methods and every history of calls, checkpoints and drops", "why_tests_cant": "Every interleaving over arbitrarily many mocks.", "anchors": ["mockall/src/lib.rs: Sequence::next_handle, SeqHandle::verify/satisfy, SeqInner", "mockall_derive/src/mock_function.rs: Common::call, in_sequence"]}
{"id": "C20", "title": "Sequence language", "statement": "For expectations with counts n1..nm (all positive) placed in one Sequence, a series of calls aimed at them is accepted iff it is a prefix of E1 n1 times, then E2 n2 times, and so on.", "quantifier": "every m, every n1..nm, every call series", "why_tests_cant": "Exact language over unbounded parameters.", "anchors": ["mockall/src/lib.rs: SeqInner::satisfy, verify", "mockall_derive/src/mock_function.rs: Common::call"]}
{"id": "C21", "title": "Only exact counts may join a sequence", "statement": "`in_sequence` panics unless the expectation's current `times` window holds exactly one count; the expectation then gets the next position, so positions follow the order of the `in_sequence` calls, with no repeats or gaps.", "quantifier": "every window, every series of in_sequence calls over any number of sequences", "why_tests_cant": "All windows and orders.", "anchors": ["mockall_derive/src/mock_function.rs: Common::in_sequence", "mockall/src/lib.rs: Times::is_exact, Sequence::next_handle"]}
{"id": "C22", "title": "Sequences are independent", "statement": "Calls to expectations of one Sequence never change whether calls to expectations of another Sequence are accepted.", "quantifier": "every pair of sequences, every history", "why_tests_cant": "All interleavings.", "anchors": ["mockall/src/lib.rs: Sequence, SeqInner"]}
{"id": "C23", "title": "A zero-count expectation blocks its sequence", "statement": "An expectation with `times(0)` placed in a Sequence is never satisfied by any history, so every expectation placed after it can never be called successfully.", "quantifier": "every sequence with a zero-count member, every history", "why_tests_cant": "Negative claim over all histories.", "anchors": ["mockall_derive/src/mock_function.rs: Common::call", "mockall/src/lib.rs: SeqInner::verify"]}
{"id": "C24", "title": "Checkpoint verifies and clears", "statement": "`checkpoint()` on a mock object panics iff some expectation of some instance method is not satisfied; if it does not panic then all expectations are gone and the object behaves exactly like a newly created one in every later history.", "quantifier": "every object state reachable by any history; every continuation", "why_tests_cant": "Behavioural equivalence over all continuations.", "anchors": ["mockall_derive/src/mock_item_struct.rs: MockItemStruct checkpoint", "mockall_derive/src/mock_function.rs: Expectations::checkpoint, GenericExpectations::checkpoint"]}
{"id": "C25", "title": "First failure is the one reported", "statement": "When several expectations are unsatisfied, drop or checkpoint panics exactly once, with the message of the first one in method declaration order and then declaration order of the expectations (order unspecified between instantiations of a generic method).", "quantifier": "every object state", "why_tests_cant": "All combinations of failing expectations.", "anchors": ["mockall_derive/src/mock_function.rs: Common Drop", "mockall_derive/src/mock_item_struct.rs: MockItemStruct"]}
{"id": "C26", "title": "No panic while panicking", "statement": "Dropping a mock object or a Context while the thread is already panicking never panics, whatever the state of its expectations, so a mock can never turn a test failure into an abort.", "quantifier": "every object/store state reachable by any history, including poisoned locks", "why_tests_cant": "All states at all panic points.", "anchors": ["mockall_derive/src/mock_function.rs: Common Drop, Context Drop"]}
{"id": "C27", "title": "A failing checkpoint", "statement": "When `checkpoint()` panics, the expectations of the failing method and of all earlier ones are gone, while those of later methods are untouched.", "quantifier": "every object, every position of the failing method", "why_tests_cant": "All positions.", "anchors": ["mockall_derive/src/mock_item_struct.rs: MockItemStruct checkpoint", "mockall_derive/src/mock_function.rs: checkpoint"]}
{"id": "C28", "title": "Generic instantiations are independent", "statement": "Expectations of a generic method for different type arguments never influence one another: a history restricted to one instantiation gives the same results with or without the calls and expectations of all others (as long as they share no Sequence). For static generic methods this holds while the method's lock is not poisoned, which is shared by all instantiations.", "quantifier": "every history over any number of instantiations", "why_tests_cant": "All interleavings over any set of types.", "anchors": ["mockall_derive/src/mock_function.rs: GenericExpectations::call, expect", "mockall/src/lib.rs: Key", "mockall_derive/src/lib.rs: gen_keyid"]}
{"id": "C29", "title": "Checkpoint covers all instantiations", "statement": "Checkpointing a generic method panics iff some expectation of some instantiation is unsatisfied, for every iteration order of the hash map.", "quantifier": "every store, every iteration order", "why_tests_cant": "Hash order is unspecified.", "anchors": ["mockall_derive/src/mock_function.rs: GenericExpectations::checkpoint"]}
{"id": "C30", "title": "Context expectations are global to the static method", "statement": "Calls to a static method see the expectations set through any Context of that method, in creation order, and through no Context of another method.", "quantifier": "every history over any number of contexts and static methods", "why_tests_cant": "All histories.", "anchors": ["mockall_derive/src/mock_function.rs: Context::expect, get_expectations, ConcreteExpectationGuard"]}
{"id": "C31", "title": "Context drop leaves a blank slate", "statement": "After a Context is dropped, either normally with its lock not poisoned or while panicking, the method has no expectations and its lock is not poisoned, whether or not verification failed.", "quantifier": "every store state and history", "why_tests_cant": "All states at every possible panic point.", "anchors": ["mockall_derive/src/mock_function.rs: Context Drop, do_checkpoint"]}
{"id": "C32", "title": "Poisoning of static methods", "statement": "A call to a static method that panics inside an expectation makes every later call and `expect` on that method panic with a poison error until a Context of it is dropped while panicking; a call that fails with `No matching expectation found` does not poison.", "quantifier": "every history", "why_tests_cant": "All histories.", "anchors": ["mockall_derive/src/mock_function.rs: MockFunction::call (static), Context Drop"]}
{"id": "C33", "title": "A failed Context checkpoint does not poison", "statement": "`Context::checkpoint` panics iff some expectation of the static method is unsatisfied (or the lock is poisoned); when verification fails all expectations are cleared and the method remains usable.", "quantifier": "every store state", "why_tests_cant": "All states.", "anchors": ["mockall_derive/src/mock_function.rs: Context::do_checkpoint"]}
{"id": "C34", "title": "Object checkpoint ignores static methods", "statement": "`checkpoint()` or drop of a mock object neither verifies nor clears expectations of static methods, even of the same struct.", "quantifier": "every object, every store", "why_tests_cant": "All states.", "anchors": ["mockall_derive/src/mock_item_struct.rs: Methods::checkpoints", "mockall_derive/src/mock_function.rs: checkpoint"]}
{"id": "C35", "title": "Counts are never lost under concurrency", "statement": "However many threads call a mock method concurrently, the number recorded for an expectation at verification equals the number of calls dispatched to it.", "quantifier": "every number of threads, every interleaving", "why_tests_cant": "Schedules.", "anchors": ["mockall/src/lib.rs: Times::call (AtomicUsize)"]}
{"id": "C36", "title": "Ceiling under concurrency", "statement": "In every interleaving at most `max` calls answered by an expectation return; with a sole expectation and m concurrent calls exactly min(m, max) pass the count check and the others panic.", "quantifier": "every number of threads, every interleaving, every window", "why_tests_cant": "Schedules.", "anchors": ["mockall/src/lib.rs: Times::call, is_done", "mockall_derive/src/mock_function.rs: StaticExpectations::call"]}
{"id": "C37", "title": "Concurrent spill-over", "statement": "If concurrent calls exhaust one expectation, the surplus calls are answered by the next matching expectation.", "quantifier": "every interleaving", "why_tests_cant": "Schedules; the claim is false of the code in some of them.", "anchors": ["mockall_derive/src/mock_function.rs: StaticExpectations::call", "mockall/src/lib.rs: Times::is_done, call"]}
{"id": "C38", "title": "Closures are serialised", "statement": "In every interleaving two calls never run the `returning` closure of one expectation at the same time, and a `return_once` closure runs at most once.", "quantifier": "every number of threads, every interleaving", "why_tests_cant": "Schedules.", "anchors": ["mockall_derive/src/mock_function.rs: StaticExpectation::call (Mutex)"]}
{"id": "C39", "title": "Sequences under concurrency", "statement": "In every interleaving, a call to the k-th expectation of a sequence returns only after every earlier one has received its expected number of calls; calls that respect the order are never rejected.", "quantifier": "every number of threads, every interleaving", "why_tests_cant": "Schedules; for times(n>1) both halves are false in some of them.", "anchors": ["mockall/src/lib.rs: SeqInner::satisfy, verify", "mockall_derive/src/mock_function.rs: Common::call"]}
{"id": "C40", "title": "Static calls are linearisable", "statement": "Concurrent calls, expects and checkpoints on a static method behave as if executed one after another in some order consistent with real time.", "quantifier": "every number of threads, every interleaving", "why_tests_cant": "Schedules.", "anchors": ["mockall_derive/src/mock_function.rs: MockFunction::call (static), get_expectations"]}
{"id": "C41", "title": "Relative paths keep their meaning in generated code", "statement": "A type written relative to the user's module (`super::X`, also nested in references, tuples, arguments, bounds) denotes the same item after being moved into the generated nested module.", "quantifier": "every type expression, every nesting level and module path", "why_tests_cant": "All type expressions.", "anchors": ["mockall_derive/src/lib.rs: supersuperfy*"]}
{"id": "C42", "title": "`Self` is fully replaced", "statement": "After processing, no `Self` type occurs in the argument or return types handled by the generator and nothing else changes.", "quantifier": "every type expression", "why_tests_cant": "All type expressions.", "anchors": ["mockall_derive/src/lib.rs: deselfify*"]}
{"id": "C43", "title": "Anonymous lifetimes are fully replaced", "statement": "After processing a return type, no anonymous lifetime `'_` remains where the generator names them and all other parts of the type are unchanged.", "quantifier": "every type expression", "why_tests_cant": "All type expressions.", "anchors": ["mockall_derive/src/lib.rs: deanonymize*"]}
{"id": "C44", "title": "Owned form of borrowed return types", "statement": "For every method returning a non-'static reference, the owned type stored in the expectation dereferences to the declared target; types with no special owned form are unchanged.", "quantifier": "every type expression", "why_tests_cant": "All type expressions.", "anchors": ["mockall_derive/src/mock_function.rs: destrify, dedynify, ownify"]}
{"id": "C45", "title": "Lifetime splitting is a partition", "statement": "The generic parameters of a method are split so that every type parameter is kept with its bounds, lifetimes in the return type go to the expectation type, lifetimes only in arguments go to the higher-ranked closure bounds, no lifetime is in both groups, and unused ones are dropped.", "quantifier": "every generics list, argument and return types", "why_tests_cant": "All signatures.", "anchors": ["mockall_derive/src/lib.rs: split_lifetimes, find_lifetimes*"]}
{"id": "C46", "title": "Merging generics", "statement": "Merging the generics of a trait/struct and a method yields all parameters of both, without duplicate names, and each parameter keeps every bound it had in either.", "quantifier": "every pair of generics", "why_tests_cant": "All signatures.", "anchors": ["mockall_derive/src/lib.rs: merge_generics"]}
{"id": "C47", "title": "Attribute filtering", "statement": "The attributes emitted on generated code are exactly the user's attributes, in order, minus the documented stripped kinds.", "quantifier": "every attribute list and flag combination", "why_tests_cant": "All lists.", "anchors": ["mockall_derive/src/lib.rs: AttrFormatter"]}
{"id": "C48", "title": "`#[double]` preserves names", "statement": "For every accepted `use` tree, the mocked import binds exactly the same local names as the original, each to the mock of the original item; it is rejected only for glob imports or a bare top-level name.", "quantifier": "every use tree", "why_tests_cant": "All use trees.", "anchors": ["mockall_double/src/lib.rs: mock_itemuse, mock_usetree, mock_ident"]}
{"id": "C49", "title": "Expectation visibility", "statement": "The visibility given to an expectation item nested `levels` modules deeper denotes the same scope (or the nearest expressible enclosing one) as the user's declared visibility.", "quantifier": "every visibility, every module path and nesting level", "why_tests_cant": "All paths and levels.", "anchors": ["mockall_derive/src/lib.rs: expectation_visibility"]}
{"id": "C50", "title": "Closure arguments become boxed trait objects", "statement": "Each generic parameter bound by Fn/FnMut/FnOnce is removed from the generics and every argument of that type is boxed as a trait object with the same bounds; all other parameters and arguments are unchanged and keep their order.", "quantifier": "every signature", "why_tests_cant": "All signatures.", "anchors": ["mockall_derive/src/lib.rs: declosurefy"]}
{"id": "C51", "title": "Associated types of automock are substituted", "statement": "After `#[automock(type T=U;)]` each `Self::T` in the trait is replaced by U and nothing else changes.", "quantifier": "every trait item type expression, every substitution list", "why_tests_cant": "All type expressions.", "anchors": ["mockall_derive/src/automock.rs: Attrs::substitute_type, get_path"]}
{"id": "C52", "title": "Struct layout covers every method", "statement": "In a generated mock struct each instance method has exactly one expectation store which is checkpointed exactly once by `checkpoint()`, and static methods none.", "quantifier": "every mock definition (any number of inherent methods, traits, statics)", "why_tests_cant": "All definitions.", "anchors": ["mockall_derive/src/mock_item_struct.rs: Methods, MockItemStruct", "mockall_derive/src/mock_trait.rs: MockTrait"]}
{"id": "C53", "title": "Distinct generic arguments have distinct keys", "statement": "Two instantiations of a generic method share an expectation store iff all their type arguments are equal.", "quantifier": "every arity and tuple of types", "why_tests_cant": "All tuples.", "anchors": ["mockall_derive/src/lib.rs: gen_keyid", "mockall/src/lib.rs: Key"]}
{"id": "C54", "title": "Expectation kind selection", "statement": "Whether expectations of a method offer owned, shared-reference or mutable-reference return setters depends only on receiver and return type: 'static returns are owned, `&self` reference returns are shared, `&mut self` reference returns are mutable; a static method returning a non-'static reference is rejected.", "quantifier": "every signature", "why_tests_cant": "All signatures.", "anchors": ["mockall_derive/src/mock_function.rs: Builder::build, expectation_obj"]}
{"id": "C55", "title": "Panic messages identify call and matcher", "statement": "Every mock-generated panic message contains the mocked function's name and, for expectation level failures, its matcher's description; for call level failures the Debug form of the arguments in order, or ? if not Debug.", "quantifier": "every failure in every state", "why_tests_cant": "All states.", "anchors": ["mockall_derive/src/mock_function.rs: desc, funcname, Common, Matcher Display", "mockall/src/lib.rs: ArgPrinter"]}
{"id": "C56", "title": "Module checkpoint is the sequence of function checkpoints", "statement": "`checkpoint()` of a mocked module behaves exactly like the checkpoints of its functions one after the other, up to and including the first that panics; functions after it are neither verified nor cleared.", "quantifier": "every state of every program, every module (list of functions)", "why_tests_cant": "which function panics first and what is left depends on the whole history of every function of the module", "anchors": ["mockall_derive/src/mock_item.rs:MockItemModule::to_tokens", "mockall_derive/src/mock_function.rs:MockFunction::checkpoint"]}
{"id": "C57", "title": "Concurrent calls terminate", "statement": "Concurrent calls on a shared mock never deadlock: as long as a call is not over some call can go on, every call is over after a bounded number of its own steps (linear in the number of expectations of the method), and from every state the calls in progress can be completed. (Closures and predicates that return and do not call the mock themselves.)", "quantifier": "every number of threads, every interleaving, every number of expectations", "why_tests_cant": "Schedules: a deadlock shows only in particular interleavings of lock acquisitions.", "anchors": ["mockall_derive/src/mock_function.rs: StaticExpectation::call, Common::call, matches", "mockall/src/lib.rs: Times::call"]}
{"id": "C58", "title": "`#[double]` on a type alias", "statement": "`#[double] type A = path::Foo<Args>` makes A an alias of `path::MockFoo<Args>` under cfg(test): same path and generic arguments, only the last name replaced by the name of its mock; every alias of a type that is not a plain path is rejected.", "quantifier": "every path, every generic argument, every type", "why_tests_cant": "All types.", "anchors": ["mockall_double/src/lib.rs: mock_itemtype, mock_ident"]}
{"id": "C59", "title": "Expectation kind follows the return type", "statement": "A mocked function offers shared-reference return setters iff it returns `&T`, mutable-reference ones iff it returns `&mut T`, in both cases unless the lifetime is 'static, and owned ones in all other cases, whatever its receiver and arguments are. A function is static iff it has no `self`, and a static function returning a reference that is not 'static is rejected.", "quantifier": "every signature, every nesting level", "why_tests_cant": "All signatures.", "anchors": ["mockall_derive/src/mock_function.rs: Builder::build, priv_module, call"]}
{"id": "C60", "title": "Arguments reach expectations and predicates", "statement": "The arguments of the mock's expectation are those of the function except `self`, in order and under the same names, with the same types (closure parameters boxed, paths adjusted so that they still mean the same); each predicate receives `&T` for an argument of type T, &T or &mut T through an expression whose type fits; the call passes on exactly one expression for each.", "quantifier": "every signature without #[concretize], every nesting level", "why_tests_cant": "All signatures.", "anchors": ["mockall_derive/src/mock_function.rs: Builder::build", "mockall_derive/src/lib.rs: declosurefy, supersuperfy"]}
{"id": "C61", "title": "`#[concretize]` turns generic arguments into trait objects", "statement": "For a `#[concretize]` function every argument of type T, &T, &mut T or &[T] reaches predicates and closures as &dyn B, &dyn B, &mut dyn B or &[&dyn B], where B are all bounds of T (&mut dyn B for FnMut), through an expression of a fitting type; other arguments are unchanged; order and names are kept; and all instantiations of the function share one set of expectations.", "quantifier": "all signatures (any number of generic parameters, bounds, where clauses and arguments) and all struct generics", "why_tests_cant": "The tests use one parameter with one bound list each; the rewriting depends on how bounds are spread over lists and on where in a type a parameter occurs, which is unbounded.", "anchors": ["mockall_derive/src/lib.rs:86-245", "mockall_derive/src/mock_function.rs:199-343"]}
{"id": "C62", "title": "A mocked module offers what the module offers", "statement": "For every module annotated #[automock] that is accepted, and every build configuration, the generated mock module (named mock_ plus the module's name) contains, in the order of the source, exactly one mock function per function of the module and per function of its extern blocks that the configuration keeps: same name, visibility, safety, generics and argument types, demutified patterns, and the same result type (impl Trait results boxed). Each has one NAME_context function, one private module and takes part in the module's checkpoint; consts, statics, structs, enums, unions, type aliases, uses, macros and trait aliases are copied unchanged; nothing else is written. Modules with receivers, impl blocks, or without a body are rejected.", "quantifier": "for all modules with any number of items and any attributes, all build configurations", "why_tests_cant": "The number, order and signatures of items and the configuration predicates are unbounded; tests only compile a few literal modules under one configuration.", "anchors": ["mockall_derive/src/mock_item.rs:56-213", "mockall_derive/src/mockable_item.rs:5-81"]}
{"id": "C63", "title": "Mocks of foreign functions can replace them and report failures", "statement": "The mock of every function declared in an extern block is unsafe, has the ABI of the block (with C replaced by C-unwind), is exported under its own symbol unless the ABI is Rust, and a failing call can leave it by a panic that the caller observes instead of aborting the process.", "quantifier": "for all extern blocks, all ABIs, all functions in them, all build configurations", "why_tests_cant": "Whether a panic may cross a function boundary depends on the ABI string, which ranges over an open set; the tests use extern \"C\" blocks only.", "anchors": ["mockall_derive/src/mock_item.rs:84-124", "mockall_derive/src/mock_function.rs:505-518"]}
{"id": "C64", "title": "Trait objects behind references get lifetimes of their own", "statement": "In the arguments of a mocked method, every trait object behind a reference that has no lifetime bound gets one, named after the argument, which is added to the generic parameters of the method; nothing else in the arguments changes, and if no argument has two such objects the new lifetimes are distinct.", "quantifier": "for all signatures, all argument types at any nesting depth of references, arrays, slices and tuples, any number of arguments", "why_tests_cant": "Argument types are an infinite recursive syntax; the tests mock a handful of signatures with one trait object each.", "anchors": ["mockall_derive/src/mockable_struct.rs:25-112"]}
{"id": "C65", "title": "`#[automock]` on a trait implements that trait", "statement": "For every trait that #[automock] accepts, the generated code contains a struct Mock<Trait> with the trait's visibility and generics and implements exactly one trait for it, the given one; that impl has, in order and with the same attributes, each constant with its default, each associated type with the type given to automock, and each method with the same name, qualifiers and receiver, and with argument and return types that are those of the trait after replacing associated types, Self and impl Trait.", "quantifier": "for all traits with any number of generics, constants, types and methods, all substitutions of associated types, all build configurations", "why_tests_cant": "Whether the generated impl matches the trait depends on the composition of six rewriting passes over arbitrary signatures; each test fixes one trait.", "anchors": ["mockall_derive/src/automock.rs:44-250", "mockall_derive/src/mockable_struct.rs:158-240", "mockall_derive/src/mockable_struct.rs:364-391", "mockall_derive/src/mock_trait.rs:60-175", "mockall_derive/src/mock_item_struct.rs:195-365"]}
{"id": "C66", "title": "#[double] finds the mock", "statement": "`#[double] use path::Foo;` brings into scope, under the same local name, exactly the struct that #[automock] on the trait or impl Foo, or mock!{Foo}, declares next to it; `#[double] use path::foo;` brings into scope the module that #[automock] mod foo declares.", "quantifier": "for all use trees with ordinary names at any nesting depth, all mocked traits, impls, mock! definitions and modules, every notion of upper case", "why_tests_cant": "The naming schemes are in two crates that share no code; tests use a few names of each kind.", "anchors": ["mockall_double/src/lib.rs:182-195", "mockall_derive/src/lib.rs:1039-1041", "mockall_derive/src/mockable_struct.rs:364-534", "mockall_derive/src/automock.rs"]}
{"id": "C67", "title": "#[automock] equals the handwritten mock!", "statement": "For every trait that #[automock] accepts, the generated code is, item by item, that of mock! for the struct written by hand, with #[derive(Debug)], the trait's visibility, generics and attributes (but must_use), and one impl of the trait with the associated types replaced by those given.", "quantifier": "for all traits, all substitutions of associated types, all hash functions", "why_tests_cant": "Equality of two generators over all inputs; the tests never compare the two macros.", "anchors": ["mockall_derive/src/mockable_struct.rs:145-240", "mockall_derive/src/mockable_struct.rs:364-391", "mockall_derive/src/mockable_struct.rs:473-534", "mockall_derive/src/automock.rs:217-250"]}
{"id": "C68", "title": "Mocks can be constructed", "statement": "The mock has a generated associated function new() iff no mocked method, of the struct or of a trait, is called new; and in every build configuration every struct that is compiled has an impl Default which sets exactly the fields the struct has, in order.", "quantifier": "for all definitions of mocks, all build configurations", "why_tests_cant": "Needs every combination of methods, traits, generics and cfg attributes.", "anchors": ["mockall_derive/src/mock_item_struct.rs:20-61", "mockall_derive/src/mock_item_struct.rs:95-120", "mockall_derive/src/mock_item_struct.rs:167-184", "mockall_derive/src/mock_item_struct.rs:195-365"]}
{"id": "C69", "title": "Mocks implement Debug when asked to", "statement": "The generated code implements Debug for the mock, exactly once, iff the definition has #[derive(.., Debug, ..)], and for no other type; #[automock] always does; no derive attribute is copied to a generated struct.", "quantifier": "for all definitions of mocks and all lists of attributes", "why_tests_cant": "Quantifies over all attribute lists and all generated items.", "anchors": ["mockall_derive/src/mock_item_struct.rs:148-165", "mockall_derive/src/mockable_struct.rs:115-123", "mockall_derive/src/mockable_struct.rs:347-361", "mockall_derive/src/lib.rs:774-857"]}
{"id": "C70", "title": "mock! generates what is written", "statement": "For every accepted mock!{..}: the struct Mock<Name> has the given visibility and generics; its impl has the constants and, in order, a mock of each method with its visibility, name, qualifiers, cfgs and signature; the traits implemented are exactly those listed, in order, each with the generics, constants, types and methods written, for the type written.", "quantifier": "for all mock! definitions, any number of methods and impls", "why_tests_cant": "Composition of all passes over arbitrary definitions; each test fixes one.", "anchors": ["mockall_derive/src/mockable_struct.rs:145-170", "mockall_derive/src/mockable_struct.rs:473-534", "mockall_derive/src/mock_trait.rs:60-175", "mockall_derive/src/mock_item_struct.rs:195-365"]}
{"id": "C71", "title": "#[automock] on an impl mocks that impl", "statement": "For `impl Foo` the generated code is a public struct MockFoo with the generics and constants of the impl and a mock of each method, implementing no trait; for `impl Trait for Foo` it implements exactly Trait for MockFoo, with the types and constants of the impl, and associated types in signatures are replaced by those the impl gives.", "quantifier": "for all impls, inherent or of a trait, with any number of items", "why_tests_cant": "Composition of all passes over arbitrary impls; each test fixes one.", "anchors": ["mockall_derive/src/mockable_struct.rs:393-471", "mockall_derive/src/automock.rs:44-61", "mockall_derive/src/mock_trait.rs:60-175"]}
{"id": "C72", "title": "Generated mocks run as the runtime does", "statement": "For every definition of a mock and every configuration: any program that uses the generated code (making mocks, calling and expecting their methods, inherent or of a trait, static or not, checkpointing, using contexts, dropping, with panics caught) sees, step by step, what the corresponding program over plain stores of expectations sees, where a mock is one list of stores, each method uses one of them, and each static method has expectations of its own. Every such step can be taken: no function, field or initialiser is missing.", "quantifier": "for all definitions, all configurations whose names rustc accepts, and all programs of any length", "why_tests_cant": "Relates arbitrary generated code to the runtime over arbitrary programs; a test runs one program on one mock.", "anchors": ["mockall_derive/src/mock_item_struct.rs:195-365", "mockall_derive/src/mock_function.rs:474-706", "mockall_derive/src/mock_function.rs:824-889", "mockall_derive/src/mock_trait.rs:130-175"]}
{"id": "C73", "title": "Single threaded closures stay with their thread", "statement": "Closures given to withf_st, returning_st, return_const_st and return_once_st must also be destroyed on the thread that registered them. A program that registers and destroys expectations with such closures on one thread (and calls there, if return_once_st is used) observes nothing of this. On another thread: dropping or checkpointing a mock completes exactly if its expectations are satisfied and no such closure is left; an unsatisfied expectation with such a closure aborts the process instead of being reported; so does a drop while panicking if any is left, and otherwise that drop completes; so does a first call answered by return_once_st.", "quantifier": "all programs of any length whose operations are executed by arbitrary threads, all states they reach, every hash map order", "why_tests_cant": "An abort cannot be caught by a test, and which destructors run on which thread depends on the whole history.", "anchors": ["mockall_derive/src/mock_function.rs:1704-1715", "mockall_derive/src/mock_function.rs:1925-1990", "mockall_derive/src/mock_function.rs:1036-1061", "mockall_derive/src/mock_function.rs:1601-1650"]}
{"id": "C74", "title": "Concurrent guarantees hold with relaxed memory ordering", "statement": "All atomic operations of mockall are Relaxed, so a thread may see old values. Whatever values the loads see: every call dispatched to an expectation is counted; an expectation never answers more calls than its maximum, and with one expectation exactly the surplus panics; return closures run one at a time in one order, and return_once at most once; no member of a sequence of times(1) expectations returns before all earlier ones have had their call. If the threads that called have synchronised with the dropping thread, drop decides by the exact number of calls. If earlier calls happen before a call, then the call is accepted in its turn by a sequence, and goes past exhausted expectations to the next one; without that synchronisation neither holds.", "quantifier": "all schedules of any number of threads and calls, and all choices of the values that relaxed loads return as far as per-variable coherence and happens-before allow", "why_tests_cant": "Stale reads are rare and depend on the processor; x86 hides most of them.", "anchors": ["mockall/src/lib.rs:1581-1637", "mockall/src/lib.rs:1697-1716", "mockall_derive/src/mock_function.rs:950-999", "mockall_derive/src/mock_function.rs:2425-2440"]}
{"id": "C75", "title": "Predicates and return closures that call mocks", "statement": "Predicates and return closures may do anything: share state, answer differently each time, and call mocks, to any depth, on the thread that runs them. Even then every call dispatched to an expectation is counted, drop decides by that count, an expectation never answers more calls than its maximum, a return closure is never entered while it runs, return_once runs at most once, and a sequence of times(1) expectations keeps its order, where the closure of a member may already call the next member. If user code only calls methods whose expectations are ranked below the one it belongs to, there is no deadlock and all calls can end. A predicate that calls the method whose first expectation it belongs to never ends, and a closure never gets an answer from its own expectation; two closures that call each other's methods on two threads deadlock.", "quantifier": "all schedules of any number of threads, all nestings of calls, and all behaviours of user code", "why_tests_cant": "A test fixes what closures do and how threads interleave; the claim is about all closures and all interleavings.", "anchors": ["mockall_derive/src/mock_function.rs:950-999", "mockall_derive/src/mock_function.rs:1716-1729", "mockall_derive/src/mock_function.rs:1946-1985", "mockall_derive/src/mock_function.rs:2425-2440", "mockall/src/lib.rs:1581-1637"]}
{"id": "C76", "title": "Arguments reach matchers, closures and messages in their own position, whatever their names", "statement": "A call's arguments are handed to the predicates of with, to the function of withf, to the return closure and to the panic messages one for one and in order: the i-th one the caller passed is the i-th one they get, unchanged, in a box (closures, C50), or by reference (concretized arguments, C61), and predicates see a reference to it. The names the user chose for the arguments make no difference, except names the generated code uses itself: those starting with __mockall_, no_match_msg, and desc in methods that return &mut. With those the mock is handed something the caller did not pass; in a concretized method such code can compile.", "quantifier": "all signatures the macro accepts, all distinct argument names, all argument values", "why_tests_cant": "Name capture depends on the names in the signature; a test tries a few, the claim is about every signature and every position.", "anchors": ["mockall_derive/src/mock_function.rs:215-240", "mockall_derive/src/mock_function.rs:500-577", "mockall_derive/src/mock_function.rs:632-643", "mockall_derive/src/mock_function.rs:1676-1725", "mockall_derive/src/mock_function.rs:2090-2103", "mockall_derive/src/mock_function.rs:2425-2440", "mockall_derive/src/lib.rs:205-221", "mockall_derive/src/lib.rs:437-441"]}
{"id": "C77", "title": "An asynchronous method is called when its future is first polled", "statement": "Calling a mocked async fn makes a future and does nothing else. The call takes place when that future is polled for the first time, on the polling thread, with the arguments given when it was made: only then are expectations matched, counted and used up, and the order that sequences see is the order of first polls. That poll finishes the future or panics; it is never pending. A future that is dropped before it is polled is no call at all. So a program with futures shows the same results and panics as the one in which each call stands where its future is first polled.", "quantifier": "all programs that make, poll and drop futures of mocked functions in any order, among all other operations", "why_tests_cant": "A test awaits futures in one order; the claim is about every interleaving of making, polling and dropping them.", "anchors": ["mockall_derive/src/mock_function.rs:487-577", "mockall_derive/src/mockable_struct.rs:365-380", "mockall_derive/src/mock_trait.rs:125-150"]}
{"id": "C78", "title": "Static methods whose predicates and closures use static methods", "statement": "Every static method has one lock, held for a whole call, predicates and closures included, and from Context::expect until the builder chain is over. Whatever user code does meanwhile, two operations on one static method never overlap, every expectation counts exactly the calls dispatched to it, and it never lets through more calls than its maximum. No operation runs for ever, and the only reasons to wait are that another operation has the lock or that user code waits for what it began. If the methods can be ranked so that user code of a method only uses methods of lower rank, there is no deadlock and all operations can end. User code that uses the static method it belongs to, including arguments of builder calls on a new expectation of that method, never ends; neither do two threads whose user code each needs the method the other is in.", "quantifier": "any number of static methods and threads, all schedules, all nestings of operations, and all behaviours of user code", "why_tests_cant": "A test fixes what closures do and how threads interleave; a deadlock is not observed by a test that ends.", "anchors": ["mockall_derive/src/mock_function.rs:541-563", "mockall_derive/src/mock_function.rs:1243-1268", "mockall_derive/src/mock_function.rs:1465-1493", "mockall_derive/src/mock_function.rs:1595-1650"]}
{"id": "C79", "title": "Generated code declares the parameters it uses", "statement": "For every function that is accepted, each type parameter of the struct and of the function (closure parameters apart) is in scope wherever the generated code uses it. For functions without bounds on or by lifetimes, each lifetime is in scope wherever the generated code uses it if and only if: no lifetime of the value returned is also one that predicates see in an argument; if a mutable reference is returned, or expectations are stored by type, all lifetimes of the arguments are in the value returned; the reference that is returned has a lifetime of an argument, of self or of the value behind it (the last only, if expectations are stored by type); a static function returns no lifetime; and a generic method that returns a reference has no lifetime of its own behind it. An argument lifetime with bounds, and a type parameter bounded by a lifetime, always give code that is not valid. With #[concretize], any lifetime in an argument or in the return type that is not one of the struct's gives code that is not valid. Expectations are stored by type exactly if the function has type parameters of its own, or it is static and the struct has some (or a where clause takes their place).", "quantifier": "all signatures (types of any depth, any generics, bounds and where clauses), methods and static functions, all generics of the struct", "why_tests_cant": "Each test compiles one signature; which combinations of lifetimes, generics and kinds of return value compile is a question about all of them, and those that do not compile cannot be in a test suite at all.", "anchors": ["mockall_derive/src/mock_function.rs:474-763", "mockall_derive/src/mock_function.rs:824-2546", "mockall_derive/src/lib.rs:split_lifetimes", "mockall_derive/src/lib.rs:merge_generics"]}
{"id": "C80", "title": "Expectations of different traits do not clash", "statement": "If a mock implements several traits, or a trait for several arguments, the stores of expectations that are generated for them have different names, so that the mock compiles, whatever the paths and arguments of the traits.", "quantifier": "all pairs of trait paths, with any number of segments and any generic arguments, all hash functions", "why_tests_cant": "Whether a way to flatten a path into a name is injective is a question about all pairs of paths; a test has a few pairs.", "anchors": ["mockall_derive/src/mock_trait.rs:ss_name_priv", "mockall_derive/src/mock_trait.rs:MockTrait"]}
{"id": "C81", "title": "Traits implemented for particular arguments of the mock struct", "statement": "If mock! implements a trait for a mock struct Foo with particular arguments, as in impl Tr for Foo<u32>, then for methods that are not generic the setter returns exactly the expectation that such a Foo stores, if and only if all parameters of Foo are types; and the type parameters of Foo are declared wherever the code generated for a method uses them, if and only if the impl declares them or the method is neither static nor generic.", "quantifier": "all generics of the mock struct, all arguments that fit them, all generics of the impl and all methods of the trait", "why_tests_cant": "The arguments and the kinds and number of the parameters are arbitrary; tests have a few structs, mostly with one type parameter.", "anchors": ["mockall_derive/src/mock_function.rs:expectation_obj", "mockall_derive/src/mock_function.rs:field_definition", "mockall_derive/src/mock_trait.rs:trait_impl"]}
{"id": "C82", "title": "Messages name the mock and the method", "statement": "In a program with any number of mock structs and mock modules: when a method of a mock struct, its own, of a trait or static, panics after any use of the mocks, the message begins with the name of the mock struct, :: and the name of the method, unless the panic is that of user code, of a single threaded closure on another thread, or a PoisonError. For a function of a mock module, the message begins with the name of the mock module, :: and the name of the function if no expectation matches or a sequence is violated, and with the name of the function if it is about an expectation. When a checkpoint or the drop of a mock or of a context, or the checkpoint of a module, panics, then, unless it is a PoisonError, the message begins with the name of the mock struct and of a method, or of a function of the module, and describes an unmet expectation of that method or function.", "quantifier": "all definitions of mock structs and mock modules that are accepted, all configurations, all programs that use any number of mocks, all arguments", "why_tests_cant": "The names pass through the generator into private modules; which module a function uses depends on the traits, their copies and the configuration, and the message on the whole history of the mocks.", "anchors": ["mockall_derive/src/mock_function.rs:funcname", "mockall_derive/src/mock_function.rs:desc", "mockall_derive/src/mock_item_struct.rs:From", "mockall_derive/src/mock_trait.rs:MockTrait::new", "mockall_derive/src/mock_item.rs:MockItemModule"]}
{"id": "C83", "title": "Programs with several mocks", "statement": "A program that uses any number of mock structs and mock modules, with sequences shared by them in any way, sees the values and panics that the same program sees on that many objects and static functions of the runtime: each mock has its own, none is shared, and the functions of a mock module and their contexts are static functions, verified by the module's checkpoint in the order of their declaration. Every function that is compiled in a module can be called and expected in its mock at any time.", "quantifier": "all lists of mocks whose definitions are accepted, in all configurations, all programs that use them, all arguments", "why_tests_cant": "A test has a fixed set of mocks. That one mock never sees the expectations of another, whatever both are used for before, is about all sets of definitions and all interleavings of their uses.", "anchors": ["mockall_derive/src/mock_item.rs:MockItemModule", "mockall_derive/src/mock_item_struct.rs:MockItemStruct", "mockall/src/lib.rs:Sequence"]}
{"id": "C84", "title": "Everything a program sees", "statement": "There is a complete, short description of what mocks do, in terms of what a user writes: an expectation is its chain of builder calls, its place in a sequence and the calls directed at it so far; a call goes to the first expectation that stops it; the last matcher, count and return setter of a chain count; verification reports the first thing wrong. Whatever a program does with any number of mock objects, static methods and sequences, panics caught, every value and every panic it sees, with the message, is what this description says, and the process never aborts. In programs without generic methods the description leaves nothing open; with them it leaves open only the order in which the type arguments are verified.", "quantifier": "all programs of fewer than 2^64 operations on mock objects, static methods, mocked modules and sequences, all chains of builder calls, arguments, predicates and return functions, stable and nightly", "why_tests_cant": "A test shows one program. That the description says everything, so that no program sees anything else, is about all programs and all histories.", "anchors": ["mockall_derive/src/mock_function.rs:Expectation", "mockall_derive/src/mock_function.rs:Expectations", "mockall_derive/src/mock_function.rs:Common", "mockall/src/lib.rs:Times", "mockall/src/lib.rs:Sequence"]}
{"id": "C85", "title": "Threads that keep out of each other's way see what one thread would see", "statement": "Threads may call the methods of shared mock objects at the same time. If calls that overlap are always to different functions whose expectations have no sequence in common (in particular if calls never overlap), then every call returns, or panics, exactly as it would if one thread made the same calls one after the other in the order in which they began; no call waits for ever; and once all calls are over the mocks and sequences are in the state in which that one thread would have left them, so that verification and later calls give the same. If calls of the same function overlap this is false.", "quantifier": "all programs that lead up to the threads, all numbers of threads, methods, expectations and sequences, all arguments, predicates and return functions, all interleavings in which overlapping calls are independent", "why_tests_cant": "A test sees the interleavings its scheduler happens to choose. The claim is about all of them, and about what they leave behind.", "anchors": ["mockall_derive/src/mock_function.rs:Expectations::call", "mockall_derive/src/mock_function.rs:Common::call", "mockall/src/lib.rs:Times", "mockall/src/lib.rs:SeqInner"]}
{"id": "C86", "title": "Mock objects and mock static methods used together, also from each other's user code", "statement": "Threads may call methods of mock objects and use mock static methods (set expectations, call, checkpoint, drop contexts) at the same time, and predicates, return closures and code that runs while an expectation guard lives may themselves use mock objects and static methods, to any depth. Then still: every expectation counts exactly the calls dispatched to it, verification is decided by that count, no expectation answers more calls than its maximum, and user code under one lock never runs twice at the same time. An operation waits only for a lock of an expectation or of a static method that another unfinished operation holds, or for one begun by its own user code. Operations that wait for each other in a circle are never over, whatever happens; in particular re-entry through any number of other mocks, and an object and a static method used from each other's closures by two threads. If user code only uses what is lower in some ranking of expectations and static methods, there is no deadlock and all operations can be brought to their ends. If no new operations are begun, everything comes to rest. User code of a call runs in exactly those steps whose outcome depends on what user code answers.", "quantifier": "all numbers of threads, objects, static methods, expectations and operations, all nestings, all interleavings and all results of user code", "why_tests_cant": "A test runs a few nestings under the interleavings its scheduler chooses; deadlock freedom and deadlock are about all of them, and a test cannot observe that something never ends.", "anchors": ["mockall_derive/src/mock_function.rs:Expectations::call", "mockall_derive/src/mock_function.rs:Common::matches", "mockall_derive/src/mock_function.rs:Expectation::call (static)", "mockall_derive/src/mock_function.rs:ExpectationGuard", "mockall_derive/src/mock_function.rs:Context"]}
{"id": "C87", "title": "Sequences are kept when threads use static methods at the same time, also together with objects", "statement": "Expectations of static methods may be put into a sequence, together with expectations of objects that are times(1), before or while threads call them. Then whatever the threads do: when an expectation of a static method lets a call through, every earlier expectation of a static method has already had at least as many calls as it needs and every earlier expectation of an object its call; calls that are let through have non-decreasing places; an expectation with times(k) none of whose calls was rejected has had exactly k calls before anything later is let through, and none after. The same holds before an expectation of an object lets its call through. Conversely a call to a times(k) expectation of a static method, or to a times(1) expectation of an object, that comes when every earlier place has had its calls is not rejected by the sequence.", "quantifier": "all sequences, all expectations of static methods with any range of counts, all numbers of threads, calls, nestings and interleavings and all results of user code", "why_tests_cant": "For objects the same claim is false with times(2) (C39), and only in rare interleavings. That the lock around static methods rules this out must be seen for all interleavings.", "anchors": ["mockall/src/lib.rs:Sequence", "mockall/src/lib.rs:SeqHandle::verify", "mockall/src/lib.rs:SeqHandle::satisfy", "mockall_derive/src/mock_function.rs:Common::call", "mockall_derive/src/mock_function.rs:static Expectation::call"]}
{"id": "C88", "title": "Contexts dropped by panicking threads while other threads use the static method", "statement": "Threads may use a static method (call it, set expectations, checkpoint it, drop contexts) while threads that are panicking drop a Context of it. Such a drop takes effect at two moments: it clears the poisoning of the method, and later, unless the method has been poisoned again in between, it removes all expectations without verifying them. Every other operation takes effect at one moment. The outcome of each operation that is over and the final state are those of doing these effects one after the other in an order consistent with real time. A drop whose two effects have nothing in between is the drop of a Context by a panicking thread in a program with one thread. Such a drop never panics, so it does not abort the program, and while something is not over something can go on.", "quantifier": "every number of threads and operations, every interleaving, every state of the program at the beginning, all user code", "why_tests_cant": "Where the flag is cleared relative to the steps of other threads depends on the schedule.", "anchors": ["mockall_derive/src/mock_function.rs:Context::drop", "mockall_derive/src/mock_function.rs:Context::checkpoint", "mockall_derive/src/mock_function.rs:get_expectations"]}
{"id": "C89", "title": "Several static methods that share sequences can be used concurrently as if one at a time", "statement": "Threads may at the same time call any number of static methods, set expectations on them, checkpoint them and drop Contexts of them, while expectations of different methods are in the same sequences, which no lock protects. Threads may also add expectations to sequences, provided that no two statements executed at the same time add to the same sequence. There is an order of the operations, in which an operation that was over before another began comes first, such that doing them one after the other in this order gives the same outcome of each operation that is over, the same place in each sequence, the same calls dispatched to the same expectations, and, once all are over, the same expectations in each method and sequence. In particular a call to a member of a sequence is accepted only after all earlier members, of whatever method, have received their full counts, and afterwards no call to an earlier member is accepted. While some operation is not over, some operation can go on, and if no new ones are begun and none is left waiting by the scheduler for ever, all come to their end.", "quantifier": "every number of static methods, threads and operations, every interleaving in which atomic accesses see the latest value, every state that a program can reach at the beginning, all predicates, closures and return values", "why_tests_cant": "A test sees a few schedules; the place of an operation in the order depends on where other threads are between its steps.", "anchors": ["mockall_derive/src/mock_function.rs:get_expectations", "mockall_derive/src/mock_function.rs:Context::checkpoint", "mockall_derive/src/mock_function.rs:Context::drop", "mockall/src/lib.rs:SeqHandle::verify", "mockall/src/lib.rs:SeqHandle::satisfy", "mockall/src/lib.rs:Sequence::next_handle"]}
{"id": "C90", "title": "#[automock] keeps the item and takes the last type given", "statement": "Where #[automock(..)] is put on a trait, an impl block or an inline module and the macro does not fail, the compiler gets that item exactly as it was written, followed by its mock and nothing else. Of several `type X = T` attributes for one name the last counts, for every name, whatever the order of the attributes for different names, and the impl of a mocked trait has these types for its associated types, in the trait's order. On impl blocks and modules the attributes of the macro have no effect. A `type X` attribute without a type, an associated type that is not given, a module in another file and every other sort of item are refused. What cannot be parsed is reported, and then neither the item nor a mock is generated. mock! generates the mock alone and #[concretize] leaves its function as it is.", "quantifier": "every list of attributes, every item, every parser of tokens", "why_tests_cant": "The lists of attributes and the items are unbounded; a test has one of each.", "anchors": ["mockall_derive/src/lib.rs:do_automock_once", "mockall_derive/src/lib.rs:mock_it", "mockall_derive/src/lib.rs:do_mock_once", "mockall_derive/src/automock.rs:Attrs::parse", "mockall_derive/src/mockable_item.rs:MockableItem::from"]}
{"id": "C91", "title": "Generated types are used as they are declared", "statement": "For every function that is accepted, with or without #[concretize], and whatever the generics, bounds and where clauses of the function and of the struct: each use of one of the types generated for it, in its private module, in the setter, the field and foo_context, gives one argument for each parameter that the type is declared with, of the same sort (lifetime or type); and every bound on a type and every where clause that the declaration asks for is written around the place of use, so that the compiler can see it is met. The call that the function itself makes gives one argument for each parameter of the typed store, whose bounds are in the generics of the struct or mean what a bound of the function means; and it gives no types if expectations are not stored by type. The signature must not itself use a type named like a generated one.", "quantifier": "all signatures (types of any depth, any generics, bounds and where clauses), methods and static functions, all generics of the struct", "why_tests_cant": "Each test compiles one combination of generics; there are infinitely many, and the ones that fail to compile cannot be in a test suite.", "anchors": ["mockall_derive/src/mock_function.rs:MockFunction::call", "mockall_derive/src/mock_function.rs:MockFunction::expect", "mockall_derive/src/mock_function.rs:MockFunction::field_definition", "mockall_derive/src/mock_function.rs:MockFunction::context_fn", "mockall_derive/src/mock_function.rs:MockFunction::priv_module", "mockall_derive/src/lib.rs:merge_generics", "mockall_derive/src/lib.rs:split_lifetimes"]}
{"id": "C92", "title": "Generated code defines no name twice", "statement": "For every mock defined by mock!, or by automock of a trait or struct, in every configuration of cfg attributes: if the functions of each block have names of their own, and none of the struct's own functions is called like a setter of expectations (expect_foo, foo_context), checkpoint, the marker of a generic parameter (_t0) or the store of a trait, and a trait implemented several times has the same attributes each time, then the generated code defines no struct, no module, no field of a struct and no function of an impl block twice. If also, for a type such as MockFoo<u8>, no two functions of the impl blocks it matches have the same setter, then no inherent function of that type is defined twice. Likewise the mock of a module has no function and no module twice, if no function of the module is called checkpoint or like another with _context behind it. Each of the conditions is needed.", "quantifier": "all definitions of structs (any number of methods, static methods, traits, generic parameters, attributes), all configurations, all types that the impl blocks match", "why_tests_cant": "A clash of names is an error of the compiler in the user's crate: the definitions that make one are exactly those that a test suite cannot contain, and the sets of names are unbounded.", "anchors": ["mockall_derive/src/mock_item_struct.rs:MockItemStruct::to_tokens", "mockall_derive/src/mock_item_struct.rs:unique_trait_iter", "mockall_derive/src/mock_item_struct.rs:Methods::field_definitions", "mockall_derive/src/mock_trait.rs:MockTrait::trait_impl", "mockall_derive/src/mock_function.rs:MockFunction::expect", "mockall_derive/src/mock_function.rs:MockFunction::context_fn", "mockall_derive/src/mock_item.rs:MockItemModule::to_tokens"]}
{"id": "C93", "title": "Functions that return impl Trait", "statement": "If a mocked method or function returns impl A + B + .., then its expectations return Box<dyn A + B + ..>, with the same bounds in the same order, and this box is pinned exactly if one of the bounds is the trait Future or Stream. The value that returning or return_once gives is what the caller gets. Every type in the bounds means what it does where the function was declared, and Self is the mock. The signature of the mock's own method does not change.", "quantifier": "all signatures (any bounds, with generic and associated arguments, paths at any depth), for mock!, and automock of traits, structs, functions and modules", "why_tests_cant": "The rewriting acts on a syntax tree of unbounded size, and each of the passes before and after it may change what it has made.", "anchors": ["mockall_derive/src/lib.rs:deimplify", "mockall_derive/src/mockable_struct.rs:mockable_method", "mockall_derive/src/mockable_struct.rs:mockable_trait_method", "mockall_derive/src/mockable_item.rs:mockable_fn", "mockall_derive/src/mock_function.rs:Builder::build", "mockall/src/lib.rs:Impl Trait"]}
{"id": "C94", "title": "Mocks can be sent to and shared with other threads", "statement": "A mock is Send (or Sync) exactly if its type parameters are, and the owned forms of what its methods return by reference are, leaving out methods with generic parameters of their own and methods that cfg removes. Nothing is required of the types of arguments, of results returned by value, of closures or of predicates. Expectations of generic methods can be stored if the where clause of their setter is met. The static variables of mocked static functions are Sync without any condition. Contexts are Send, whatever the types of the function. Sequences are Send and Sync. Closures, predicates and values given to an expectation have the traits that the field they are put into asks for; one that need not be Send is only put into a Fragile.", "quantifier": "all mocks (any methods, traits, type parameters, argument and return types) and all assignments of Send and Sync to the types of the user", "why_tests_cant": "Whether a type is Send or Sync is decided by the compiler for each type from all its fields; a test shows it for the types that it uses, not for all.", "anchors": ["mockall_derive/src/mock_function.rs:Matcher", "mockall_derive/src/mock_function.rs:Common", "mockall_derive/src/mock_function.rs:RefRfunc", "mockall_derive/src/mock_function.rs:RefMutRfunc", "mockall_derive/src/mock_function.rs:StaticRfunc", "mockall_derive/src/mock_function.rs:GenericExpectations", "mockall_derive/src/mock_function.rs:send_syncify", "mockall_derive/src/mock_function.rs:Context", "mockall_derive/src/mock_item_struct.rs:phantom_fields", "mockall/src/lib.rs:AnyExpectations", "mockall/src/lib.rs:SeqHandle"]}
{"id": "C95", "title": "Generated types use every parameter that they declare", "statement": "Rust refuses a struct or enum that has a type parameter or a lifetime which none of its fields uses. Every type generated for a mocked function uses all its type parameters, with or without #[concretize], and whatever the generics of the function and of the struct are. It uses all its lifetimes too, except in one case: ExpectationGuard of a static function with generics that returns something with a lifetime that is a parameter. Every generated struct of a mock has a field for each of its type parameters and lifetimes, which no cfg attribute removes.", "quantifier": "all functions (any generics, arguments and return type, static or not, #[concretize] or not) and all mocks of structs and traits", "why_tests_cant": "Each test has one signature. Which parameters a type declares depends on where the lifetimes and type parameters of the signature occur, in unboundedly many ways.", "anchors": ["mockall_derive/src/mock_function.rs:Matcher", "mockall_derive/src/mock_function.rs:Common", "mockall_derive/src/mock_function.rs:RefRfunc", "mockall_derive/src/mock_function.rs:RefMutRfunc", "mockall_derive/src/mock_function.rs:StaticRfunc", "mockall_derive/src/mock_function.rs:ConcreteExpectationGuard", "mockall_derive/src/mock_function.rs:GenericExpectationGuard", "mockall_derive/src/mock_function.rs:Context", "mockall_derive/src/mock_item_struct.rs:phantom_fields", "mockall_derive/src/lib.rs:split_lifetimes"]}
{"id": "C96", "title": "Mocks that share no sequence do not influence each other", "statement": "Take any program and any choice of some of its mock objects, static methods and mocked modules. If no expectation of theirs is in a sequence with an expectation of one of the others, then everything the program sees of them (values, panics with their messages, verification) is what it would see if all operations on the others were left out, even if those panic. In programs with generic methods it is something that can then be seen, as the order in which type arguments are verified is open. With a sequence in common this is false.", "quantifier": "all programs of fewer than 2^64 operations on any number of mock objects, static methods, modules and sequences, all chains of builder calls, predicates and return functions, and all choices of mocks", "why_tests_cant": "It compares two programs, for all pairs of a program and its part; a test runs one.", "anchors": ["mockall/src/lib.rs:Sequence", "mockall/src/lib.rs:SeqInner", "mockall_derive/src/mock_function.rs:call", "mockall_derive/src/mock_function.rs:Context", "mockall_derive/src/mock_item_struct.rs:MockItemStruct", "mockall_derive/src/mock_item.rs:MockItemModule"]}
{"id": "C97", "title": "A passed checkpoint makes the past of a mock irrelevant", "statement": "If checkpoint() of a mock object passes, then everything the program sees afterwards, of this object and of all other mocks, is what it would see if it had never used the object before and had not made the checkpoint. Sequences that the object used before must not be used for anything else. The same holds for a static method after its Context is dropped, even if that panics, unless the method is poisoned. It is false if the checkpoint panics and is caught, and if a sequence is used again.", "quantifier": "all programs of fewer than 2^64 operations on any number of mock objects, static methods, modules and sequences (without generic methods), all points of the program at which an object is checkpointed, all chains of builder calls, predicates and return functions", "why_tests_cant": "It compares all continuations of all histories with those of another history.", "anchors": ["mockall_derive/src/mock_item_struct.rs:MockItemStruct", "mockall_derive/src/mock_function.rs:checkpoint", "mockall/src/lib.rs:Sequence"]}
