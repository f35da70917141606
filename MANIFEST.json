{
 "claims": [
  {
   "property": "C01",
   "status": "proved",
   "theorems": [
    "Mockall.Props.C01_ceiling",
    "Mockall.Props.C01_ceiling_const",
    "Mockall.Props.C01_ceiling_program",
    "Mockall.Props.C01_never_more"
   ],
   "note": "C01_ceiling: one expectation, any kind and return setters; C01_ceiling_const: with the values; C01_ceiling_program / C01_never_more: any expectation in any whole program (outside of / including sequences)."
  },
  {
   "property": "C02",
   "status": "proved",
   "theorems": [
    "Mockall.Props.C02_verdict",
    "Mockall.Props.C02_message"
   ],
   "note": "Reachable states of whole programs; hypothesis: its predicates did not panic, fewer than usize::MAX dispatched calls."
  },
  {
   "property": "C03",
   "status": "partial",
   "theorems": [
    "Mockall.Props.C03_denotation_partial",
    "Mockall.Props.C03_backwards",
    "Mockall.Props.C03_accepted",
    "Mockall.Props.C03_false_at_max",
    "Mockall.Props.C03_empty_to"
   ],
   "note": "Holds for call counts below usize::MAX; false at usize::MAX (C03_false_at_max) and times(..0) is accepted although it spells no count (C03_empty_to)."
  },
  {
   "property": "C04",
   "status": "proved",
   "theorems": [
    "Mockall.Props.C04_unlimited"
   ],
   "note": "Whole programs, fewer than usize::MAX dispatched calls."
  },
  {
   "property": "C05",
   "status": "proved",
   "theorems": [
    "Mockall.Props.C05_last_wins",
    "Mockall.Props.C05_commute"
   ],
   "note": "Chains without in_sequence (whose effect on the sequence is C21)."
  },
  {
   "property": "C06",
   "status": "proved",
   "theorems": [
    "Mockall.Props.C06_refinement",
    "Mockall.Props.C06_program"
   ],
   "note": "C06_refinement: observations and closure runs of a method equal those of a separate specification; C06_program: the ready expectation with the smallest declaration ordinal is dispatched, in whole programs of any kind."
  },
  {
   "property": "C07",
   "status": "proved",
   "theorems": [
    "Mockall.Props.C07_no_match",
    "Mockall.Props.C07_match"
   ],
   "note": "Whole programs; hypotheses: predicates do not panic, tame times arguments."
  },
  {
   "property": "C08",
   "status": "proved",
   "theorems": [
    "Mockall.Props.C08_never",
    "Mockall.Props.C08_skip"
   ],
   "note": ""
  },
  {
   "property": "C09",
   "status": "proved",
   "theorems": [
    "Mockall.Props.C09_frame",
    "Mockall.Props.C09_others"
   ],
   "note": ""
  },
  {
   "property": "C10",
   "status": "proved",
   "theorems": [
    "Mockall.Props.C10_staircase"
   ],
   "note": "n = 1 is C01."
  },
  {
   "property": "C11",
   "status": "proved",
   "theorems": [
    "Mockall.Props.C11_swap"
   ],
   "note": "Histories of one method of any kind; the two swapped expectations are not in a sequence and their predicates do not panic; all others are arbitrary."
  },
  {
   "property": "C12",
   "status": "proved",
   "theorems": [
    "Mockall.Props.C12_conjunction",
    "Mockall.Props.C12_own_argument",
    "Mockall.Props.C12_nullary",
    "Mockall.Props.C12_panic",
    "Mockall.Props.C12_withf"
   ],
   "note": ""
  },
  {
   "property": "C13",
   "status": "proved",
   "theorems": [
    "Mockall.C13_returning",
    "Mockall.C13_returning_mut",
    "Mockall.C13_panicked",
    "Mockall.C13_only"
   ],
   "note": "Owned and &mut results, instance/static/generic methods, whole programs; C13_only: no other closure ever runs; C13_panicked: after the closure of an owned-result expectation panicked, later answered calls panic without running it."
  },
  {
   "property": "C14",
   "status": "proved",
   "theorems": [
    "Mockall.C14_const",
    "Mockall.C14_const_st"
   ],
   "note": "C14_const_st: the _st variant for calls from the owning thread."
  },
  {
   "property": "C15",
   "status": "proved",
   "theorems": [
    "Mockall.C15_first",
    "Mockall.C15_later",
    "Mockall.C15_at_most_once"
   ],
   "note": "C15_at_most_once: any whole program, closure identified by a ghost name."
  },
  {
   "property": "C16",
   "status": "proved",
   "theorems": [
    "Mockall.C16_stable",
    "Mockall.C16_nightly"
   ],
   "note": "The stored default behind `&mut` keeps what earlier callers wrote (the code's behaviour). For owned results later calls panic on the poisoned lock instead of the message."
  },
  {
   "property": "C17",
   "status": "proved",
   "theorems": [
    "Mockall.C17_var",
    "Mockall.C17_fresh"
   ],
   "note": ""
  },
  {
   "property": "C18",
   "status": "proved",
   "theorems": [
    "Mockall.C18_runs",
    "Mockall.C18_foreign",
    "Mockall.C18_withf_st",
    "Mockall.C18_withf_st_unused"
   ],
   "note": "Return closures: C18_runs over whole programs; matchers: C18_withf_st, C18_withf_st_unused. What destroying or moving such a closure on a foreign thread does is C73."
  },
  {
   "property": "C19",
   "status": "proved",
   "theorems": [
    "Mockall.C19_complete",
    "Mockall.C19_before",
    "Mockall.C19_after",
    "Mockall.C19_observed"
   ],
   "note": "For every split of the log of dispatched calls of any program; 'received its full count' counts calls that reached the expectation, including rejected ones (examples show that rejected calls do count). C19_observed states it for what the caller sees. Log shorter than 2^64."
  },
  {
   "property": "C20",
   "status": "proved",
   "theorems": [
    "Mockall.C20_language",
    "Mockall.C20_members"
   ],
   "note": "Every program in which the members of the sequence are placed once each with exact positive counts; log shorter than 2^64. An example shows that placing one expectation twice leaves an unfillable gap."
  },
  {
   "property": "C21",
   "status": "proved",
   "theorems": [
    "Mockall.C21_exact",
    "Mockall.C21_next",
    "Mockall.C21_kept",
    "Mockall.C21_positions",
    "Mockall.C21_handle"
   ],
   "note": "C21_exact: in_sequence succeeds iff the window holds exactly one count. C21_next/kept/positions: numbering. The no-gaps half needs that no expectation is placed twice (an example shows the gap otherwise)."
  },
  {
   "property": "C22",
   "status": "proved",
   "theorems": [
    "Mockall.C22_refinement",
    "Mockall.C22_independent"
   ],
   "note": "Accept/reject decisions of a sequence are a function of the calls to its own members, positions and counts."
  },
  {
   "property": "C23",
   "status": "proved",
   "theorems": [
    "Mockall.C23_blocked",
    "Mockall.C23_observed"
   ],
   "note": "times(0)/never() at position j: no call at a position >= j ever accepted."
  },
  {
   "property": "C24",
   "status": "proved",
   "theorems": [
    "Mockall.C24_verdict",
    "Mockall.C24_clears",
    "Mockall.C24_like_new"
   ],
   "note": "C24_verdict: completes iff every expectation of every method and instantiation is permitted its count, for every hash map order at the checkpoint. C24_clears: the object is then exactly a new one. C24_like_new: every later program is observed as if a new object had been created and used instead."
  },
  {
   "property": "C25",
   "status": "proved",
   "theorems": [
    "Mockall.C25_first",
    "Mockall.Props.C25_message"
   ],
   "note": "checkpoint and drop have the same outcome, the panic of the first failing expectation of a list ordered by method and, per method (per instantiation for generic ones), by declaration; no abort."
  },
  {
   "property": "C26",
   "status": "partial",
   "theorems": [
    "Mockall.C26_object_partial",
    "Mockall.C26_context_partial",
    "Mockall.C26_no_abort_partial",
    "Mockall.Props.C26_refuted"
   ],
   "note": "In every state (reachable or not), dropping an object or a Context while panicking completes as far as mockall's own verification is concerned. With the destructors of single threaded closures it is false on a foreign thread: C26_refuted. C73_unwinding_object and C73_unwinding_context give the exact condition."
  },
  {
   "property": "C27",
   "status": "proved",
   "theorems": [
    "Mockall.C27_failing",
    "Mockall.C27_counts"
   ],
   "note": "Which method fails first, what is cleared, what is left, and that nothing else changes."
  },
  {
   "property": "C28",
   "status": "proved",
   "theorems": [
    "Mockall.C28_projection",
    "Mockall.C28_same",
    "Mockall.C28_alone"
   ],
   "note": "Instance methods: C28_alone (all other operations deleted), C28_same, C28_projection (refines to one list of expectations); functions may use sequences, but not the same ones. Static generic functions: C28_projection/C30_static while the lock is unpoisoned; an example shows that poison crosses instantiations."
  },
  {
   "property": "C29",
   "status": "proved",
   "theorems": [
    "Mockall.C29_order",
    "Mockall.C29_method",
    "Mockall.C29_static"
   ],
   "note": "C29_order, C29_static: in every state the outcome is the same for all iteration orders. C29_method, C24_verdict, C33_verdict: it is the verdict over all instantiations."
  },
  {
   "property": "C30",
   "status": "proved",
   "theorems": [
    "Mockall.C30_static"
   ],
   "note": "Refinement to a single list of expectations, for programs that do not checkpoint/drop/poison the function (those cases: C31-C33). Context has no identity in the model because the Rust type carries no data."
  },
  {
   "property": "C31",
   "status": "proved",
   "theorems": [
    "Mockall.C31_blank",
    "Mockall.C31_verdict",
    "Mockall.C31_poisoned"
   ],
   "note": "State equality with the initial state of the function; C31_poisoned is the stated limit (normal drop with poisoned lock)."
  },
  {
   "property": "C32",
   "status": "proved",
   "theorems": [
    "Mockall.C32_until",
    "Mockall.C32_call",
    "Mockall.C32_reached",
    "Mockall.C32_expect",
    "Mockall.C32_release"
   ],
   "note": "When a lock becomes poisoned (C32_call, C32_reached, C32_expect), for how long (C32_until, over all programs), and how it is released (C32_release)."
  },
  {
   "property": "C33",
   "status": "proved",
   "theorems": [
    "Mockall.C33_verdict",
    "Mockall.C33_clears",
    "Mockall.C33_poisoned"
   ],
   "note": "Verdict for every hash map order, clearing in both cases, poisoned case."
  },
  {
   "property": "C34",
   "status": "proved",
   "theorems": [
    "Mockall.C34_object"
   ],
   "note": "For any state; that the mock struct has no fields for its static methods is part of C52."
  },
  {
   "property": "C35",
   "status": "proved",
   "theorems": [
    "Mockall.C35_count",
    "Mockall.C35_verdict"
   ],
   "note": "Counts at the end of any schedule, and the verdict at drop. Counter modulo 2^64."
  },
  {
   "property": "C36",
   "status": "proved",
   "theorems": [
    "Mockall.C36_ceiling",
    "Mockall.C36_exact"
   ],
   "note": "Ceiling for every expectation at every moment; exact number for a sole expectation that matches all calls."
  },
  {
   "property": "C37",
   "status": "partial",
   "theorems": [
    "Mockall.C37_partial",
    "Mockall.C37_refuted",
    "Mockall.C37_norace_partial",
    "Mockall.C37_apart_partial"
   ],
   "note": "Calls that start after the expectations ahead were exhausted spill over (C37_partial). The full claim is false: C37_refuted gives two overlapping calls, one of which panics although the next expectation has room. For every call, however it overlaps with others, the claim holds as long as no two calls find room in the same expectation before either is counted: C37_norace_partial; C37_apart_partial is the same for calls of which no two handed to the same expectation are in progress at once."
  },
  {
   "property": "C38",
   "status": "proved",
   "theorems": [
    "Mockall.C38_exclusive",
    "Mockall.C38_once",
    "Mockall.C38_history"
   ],
   "note": "Mutual exclusion, return_once at most once, and the closure's history is one run after another."
  },
  {
   "property": "C39",
   "status": "partial",
   "theorems": [
    "Mockall.C39_order_partial",
    "Mockall.C39_accept_partial",
    "Mockall.C39_refuted",
    "Mockall.C39_counts_order_partial",
    "Mockall.C39_counts_accept_partial"
   ],
   "note": "Both halves for sequences of times(1) members under every schedule. For larger counts both are false: C39_refuted (one of two overlapping expected calls panics, the next member is skipped). They hold for all counts when no two calls handed to the same member (with a count above one) are in progress at once: C39_counts_order_partial, C39_counts_accept_partial."
  },
  {
   "property": "C40",
   "status": "proved",
   "theorems": [
    "Mockall.Props.C40_linearisable",
    "Mockall.Props.C40_progress",
    "Mockall.Props.C40_unwinding_refuted"
   ],
   "note": "Every schedule of calls, expects, checkpoints and non-panicking Context drops on one static method, with one step per operation under the lock, is equal to a sequential program consistent with real time, from any program state; the sequences used are not used by other code meanwhile. C40_unwinding_refuted: the drop of a Context by a panicking thread (not part of the claim) is not atomic."
  },
  {
   "property": "C41",
   "status": "partial",
   "theorems": [
    "Mockall.Props.C41_relative_paths_partial",
    "Mockall.Props.C41_generics_partial",
    "Mockall.Props.C41_total",
    "Mockall.Props.C41_not_rewritten",
    "Mockall.Props.C41_self_super",
    "Mockall.Props.C41_captured",
    "Mockall.Props.C41_output_partial",
    "Mockall.Props.C41_args_partial",
    "Mockall.Props.C41_call_generics_partial",
    "Mockall.Props.C41_struct_partial",
    "Mockall.Props.C41_module_partial",
    "Mockall.Props.C41_captured_names",
    "Mockall.Props.C41_captured_names_inhabited"
   ],
   "note": "Same meaning for every type all of whose paths are Good; false (with witnesses) for super in array lengths, impl Trait, arguments of inner segments, for self::super, and for names captured by the generated module. The same for the output, the arguments and the generics of the function that build returns. C41_struct_partial and C41_module_partial: in mock structs and mock modules the types are rewritten for the number of modules that the generated code is in."
  },
  {
   "property": "C42",
   "status": "partial",
   "theorems": [
    "Mockall.Props.C42_self_replaced_partial",
    "Mockall.Props.C42_self_replaced_args_partial",
    "Mockall.Props.C42_self_total",
    "Mockall.Props.C42_self_survives",
    "Mockall.Props.C42_const_rejected"
   ],
   "note": "Exact rewriting outside of fn(..) and Fn(..) arguments, where Self survives (witness); const generics are rejected (witness)."
  },
  {
   "property": "C43",
   "status": "partial",
   "theorems": [
    "Mockall.Props.C43_deanonymized_partial",
    "Mockall.Props.C43_total",
    "Mockall.Props.C43_anonymous_survives"
   ],
   "note": "Exact rewriting outside of type arguments of paths, where '_ survives (witness)."
  },
  {
   "property": "C44",
   "status": "partial",
   "theorems": [
    "Mockall.Props.C44_owned_derefs_partial",
    "Mockall.Props.C44_plain_unchanged",
    "Mockall.Props.C44_static_unchanged",
    "Mockall.Props.C44_sized_partial",
    "Mockall.Props.C44_unsized",
    "Mockall.Props.C44_own_path"
   ],
   "note": "The owned type derefs to the declared target for every type, given that the std names mean the std types. Missing: C44_own_path (a user type named Path etc. is replaced by the std owned type) and C44_unsized (`&(dyn A + Send)` and `&::std::path::Path` stay unsized) are counterexamples."
  },
  {
   "property": "C45",
   "status": "partial",
   "theorems": [
    "Mockall.Props.C45_split_partial",
    "Mockall.Props.C45_no_params",
    "Mockall.Props.C45_unused_dropped",
    "Mockall.Props.C45_total",
    "Mockall.Props.C45_dropped",
    "Mockall.Props.C45_consts_dropped",
    "Mockall.Props.C45_escapes"
   ],
   "note": "Type parameters kept in order, groups disjoint, sound, and complete except for lifetimes inside Fn(..) and in the written type of a receiver. Counterexamples: C45_dropped (used lifetimes dropped), C45_consts_dropped (const parameters and where clause dropped), C45_escapes (a kept bound mentions a lifetime that is not declared)."
  },
  {
   "property": "C46",
   "status": "partial",
   "theorems": [
    "Mockall.Props.C46_params",
    "Mockall.Props.C46_bounds",
    "Mockall.Props.C46_where",
    "Mockall.Props.C46_lifetimes_partial",
    "Mockall.Props.C46_where_lifetimes_partial",
    "Mockall.Props.C46_lifetime_bounds_lost",
    "Mockall.Props.C46_bound_twice",
    "Mockall.Props.C46_attrs",
    "Mockall.Props.C46_defaults"
   ],
   "note": "Parameters, type bounds and where bounds on types in full. Missing: bounds of a lifetime that is in both lists, lost from the second (C46_lifetime_bounds_lost); merging with an empty list duplicates for<'a> binders (C46_bound_twice)."
  },
  {
   "property": "C47",
   "status": "partial",
   "theorems": [
    "Mockall.Props.C47_filter_partial",
    "Mockall.Props.C47_sound",
    "Mockall.Props.C47_lost",
    "Mockall.Props.C47_struct_partial",
    "Mockall.Props.C47_trait_partial",
    "Mockall.Props.C47_definition_partial",
    "Mockall.Props.C47_module_partial"
   ],
   "note": "Exact for attribute lists whose cfg_attr do not merely mention the text `concretize`; for all lists what is emitted is in order and allowed. C47_lost: a cfg_attr that mentions `concretize` in passing is lost. The last four: what each generated item gets, for structs, methods, traits and functions of modules with plain attributes."
  },
  {
   "property": "C48",
   "status": "partial",
   "theorems": [
    "Mockall.Props.C48_double_partial",
    "Mockall.Props.C48_rejected",
    "Mockall.Props.C48_self",
    "Mockall.Props.C48_raw"
   ],
   "note": "Exact for use trees without `self` leaves and raw identifiers; rejection characterised for all. C48_self and C48_raw show the exceptions."
  },
  {
   "property": "C49",
   "status": "partial",
   "theorems": [
    "Mockall.Props.C49_scope_partial",
    "Mockall.Props.C49_self",
    "Mockall.Props.C49_build_partial",
    "Mockall.Props.C49_struct",
    "Mockall.Props.C49_modules_partial",
    "Mockall.Props.C49_module_partial"
   ],
   "note": "Same scope for every visibility whose path does not begin with `self`; C49_self shows that those become invalid paths. C49_build_partial is about the visibilities that build computes, C49_struct about those of the functions in the generated code. C49_modules_partial and C49_module_partial: in mock structs and mock modules, for the modules that the generated code is in."
  },
  {
   "property": "C50",
   "status": "partial",
   "theorems": [
    "Mockall.Props.C50_closures_partial",
    "Mockall.Props.C50_total",
    "Mockall.Props.C50_bounds_lost",
    "Mockall.Props.C50_for_lost",
    "Mockall.Props.C50_escapes",
    "Mockall.Props.C50_two_rejected"
   ],
   "note": "The bounds of the list that contains the Fn bound are boxed; bounds from other lists and the for<..> of a where clause are lost, and uses of the parameter inside other types keep it though it is removed."
  },
  {
   "property": "C51",
   "status": "partial",
   "theorems": [
    "Mockall.Props.C51_assoc_substituted_partial",
    "Mockall.Props.C51_no_self_unchanged",
    "Mockall.Props.C51_assoc_direct",
    "Mockall.Props.C51_total",
    "Mockall.Props.C51_assoc_survives"
   ],
   "note": "Exact substitution outside of bounds of associated types, where Self::T survives (witness)."
  },
  {
   "property": "C52",
   "status": "proved",
   "theorems": [
    "Mockall.Props.C52_checkpoint",
    "Mockall.Props.C52_instance",
    "Mockall.Props.C52_static",
    "Mockall.Props.C52_trait",
    "Mockall.Props.C52_trait_static",
    "Mockall.Props.C52_unshared",
    "Mockall.Props.C52_missing"
   ],
   "note": "About the code generated (fields, impls, statements with their attributes) for every definition and every configuration (cfg) in which rustc accepts the names. The meaning of checkpoint() and of dropping is given by a small semantics of that code. A trait that is implemented several times for different arguments of the mock uses the stores of the first copy; C52_missing shows that a method the first copy lacks gets code that does not compile."
  },
  {
   "property": "C53",
   "status": "partial",
   "theorems": [
    "Mockall.Props.C53_keys_partial",
    "Mockall.Props.C53_total",
    "Mockall.Props.C53_closures_share",
    "Mockall.Props.C53_lifetime_only",
    "Mockall.Props.C61_one_store"
   ],
   "note": "Keys are equal iff all type arguments of the struct and of the function are, except those of closure parameters, which are not part of the key (C53_closures_share shows the claim fails for them). No key can be made if the only parameter is a lifetime (C53_lifetime_only). TypeId is taken to be injective; With #[concretize] the key has the type arguments of the struct only (C61_one_store)."
  },
  {
   "property": "C54",
   "status": "partial",
   "theorems": [
    "Mockall.Props.C54_kind_partial",
    "Mockall.Props.C59_static_rejected",
    "Mockall.Props.C54_receiver_ignored"
   ],
   "note": "Holds where the returned reference is as mutable as the receiver. Otherwise the kind follows the returned reference and not the receiver (C54_receiver_ignored); see C59 for what does hold."
  },
  {
   "property": "C55",
   "status": "partial",
   "theorems": [
    "Mockall.Props.C55_call_partial",
    "Mockall.Props.C55_verify_partial",
    "Mockall.Props.C55_args",
    "Mockall.Props.C55_refuted"
   ],
   "note": "Every panic of a call or of a verification names the function and shows the arguments or describes the matcher, except panics of user code, of a single threaded closure on another thread, and PoisonError. Refuted as stated: Backwards range, the in_sequence assertion and PoisonError name nothing."
  },
  {
   "property": "C56",
   "status": "proved",
   "theorems": [
    "Mockall.C56_module"
   ],
   "note": "For any state; by C33 each single checkpoint is characterised."
  },
  {
   "property": "C57",
   "status": "proved",
   "theorems": [
    "Mockall.C57_progress",
    "Mockall.C57_bounded",
    "Mockall.C57_completes"
   ],
   "note": "Progress, bound on own steps, completability. Re-entrant closures excluded by the model."
  },
  {
   "property": "C58",
   "status": "proved",
   "theorems": [
    "Mockall.Props.C58_type_alias",
    "Mockall.Props.C58_type_rejected"
   ],
   "note": "All type aliases."
  },
  {
   "property": "C59",
   "status": "proved",
   "theorems": [
    "Mockall.Props.C59_kind",
    "Mockall.Props.C59_static_rejected"
   ],
   "note": "About Builder::build and the choices of priv_module, for every signature of the syntax modelled, with or without #[concretize]."
  },
  {
   "property": "C60",
   "status": "proved",
   "theorems": [
    "Mockall.Props.C60_args"
   ],
   "note": "With the reservations of C41 about which paths keep their meaning, which are part of the statement (Use.Good). Signatures without #[concretize]."
  },
  {
   "property": "C61",
   "status": "partial",
   "theorems": [
    "Mockall.Props.C61_concretize_partial",
    "Mockall.Props.C61_one_store",
    "Mockall.Props.C61_total",
    "Mockall.Props.C61_overwritten",
    "Mockall.Props.C61_ref_fnmut",
    "Mockall.Props.C61_fnmut_second",
    "Mockall.Props.C61_left",
    "Mockall.Props.C61_struct_partial",
    "Mockall.Props.C61_module_partial"
   ],
   "note": "Exact for signatures in which each parameter has its bounds in one list, FnMut is the first bound and not behind a reference. Counterexamples: bounds in two lists (C61_overwritten), &F with F: FnMut (C61_ref_fnmut), Send + FnMut (C61_fnmut_second), &'a T and Option<T> (C61_left). C61_struct_partial and C61_module_partial: for the functions of mock structs and mock modules with the attribute among others."
  },
  {
   "property": "C62",
   "status": "partial",
   "theorems": [
    "Mockall.Props.C62_module_partial",
    "Mockall.Props.C62_rejects",
    "Mockall.Props.C62_attrs_ignored",
    "Mockall.Props.C62_block_cfg"
   ],
   "note": "Proved for extern blocks and modules without configuration attributes; those attributes are dropped, which C62_block_cfg and C62_attrs_ignored show."
  },
  {
   "property": "C63",
   "status": "partial",
   "theorems": [
    "Mockall.Props.C63_foreign_partial",
    "Mockall.Props.C63_abort"
   ],
   "note": "Safety, ABI and symbol proved for all blocks; the absence of aborts only for extern \"C\" written out and unwinding ABIs, refuted for extern {} and extern \"system\" by C63_abort."
  },
  {
   "property": "C64",
   "status": "partial",
   "theorems": [
    "Mockall.Props.C64_explicit_partial",
    "Mockall.Props.C64_angle",
    "Mockall.Props.C64_distinct",
    "Mockall.Props.C64_total",
    "Mockall.Props.C64_hidden",
    "Mockall.Props.C64_declared_twice",
    "Mockall.Props.C64_rejected"
   ],
   "note": "Objects inside type arguments (Option<&dyn T>), bare fn types and the like keep their elided lifetime (C64_hidden); two objects in one argument declare the same lifetime twice (C64_declared_twice); parenthesised types are refused (C64_rejected)."
  },
  {
   "property": "C65",
   "status": "partial",
   "theorems": [
    "Mockall.Props.C65_automock_trait_partial",
    "Mockall.Props.C65_cfg_dangling"
   ],
   "note": "Assumes that what has to be replaced is not where the passes do not look (C42, C43, C51, C64).  The attributes of the trait are not copied to impl Default, impl Debug and the inherent impl (C65_cfg_dangling)."
  },
  {
   "property": "C66",
   "status": "partial",
   "theorems": [
    "Mockall.Props.C66_names_partial",
    "Mockall.Props.C66_lower_type",
    "Mockall.Props.C66_upper_module"
   ],
   "note": "For types that begin with an upper case letter and modules that do not; false otherwise, with witnesses."
  },
  {
   "property": "C67",
   "status": "partial",
   "theorems": [
    "Mockall.Props.C67_handwritten_partial"
   ],
   "note": "For traits whose associated types occur only where automock looks (see C51)."
  },
  {
   "property": "C68",
   "status": "proved",
   "theorems": [
    "Mockall.Props.C68_new",
    "Mockall.Props.C68_default",
    "Mockall.Props.C68_trait_new",
    "Mockall.Props.C68_cfg_new"
   ],
   "note": "C68_trait_new and C68_cfg_new show two consequences that contradict the documentation of new and may surprise."
  },
  {
   "property": "C69",
   "status": "proved",
   "theorems": [
    "Mockall.Props.C69_debug",
    "Mockall.Props.C69_derives",
    "Mockall.Props.C69_automock"
   ],
   "note": "C69_automock is for impls whose type is a plain path."
  },
  {
   "property": "C70",
   "status": "partial",
   "theorems": [
    "Mockall.Props.C70_mock_partial",
    "Mockall.Props.C70_self",
    "Mockall.Props.C70_negative"
   ],
   "note": "For signatures in which Self, anonymous lifetimes and trait objects occur only where the macro looks (C42, C43, C64). False for Self in an impl for another type than the generic struct, and for negative impls."
  },
  {
   "property": "C71",
   "status": "partial",
   "theorems": [
    "Mockall.Props.C71_inherent_partial",
    "Mockall.Props.C71_trait_partial",
    "Mockall.Props.C71_unapplied"
   ],
   "note": "Same proviso as C70 and C51; C71_unapplied: no valid code if the parameters of the impl are not those of the type."
  },
  {
   "property": "C72",
   "status": "proved",
   "theorems": [
    "Mockall.Props.C72_behaves",
    "Mockall.Props.C72_object",
    "Mockall.Props.C72_instance",
    "Mockall.Props.C72_trait",
    "Mockall.Props.C72_static"
   ],
   "note": "A big-step semantics of the generated items (Spec/Exec.lean) is simulated by the system machine of Rt/System.lean, so the theorems about Sys.run hold of generated structs. The runtime functions of each module (Expectations::call etc.) are taken from the runtime model, not from generated text."
  },
  {
   "property": "C73",
   "status": "proved",
   "theorems": [
    "Mockall.Props.C73_home",
    "Mockall.Props.C73_drop",
    "Mockall.Props.C73_checkpoint",
    "Mockall.Props.C73_context",
    "Mockall.Props.C73_unwinding_object",
    "Mockall.Props.C73_unwinding_context",
    "Mockall.Props.C73_unmet",
    "Mockall.Props.C73_once"
   ],
   "note": "Assumes the contract of the crate fragile 2.0 stated in DESIGN.md: its destructor panics on a foreign thread, and into_inner does so while it owns the value. C73_context gives the exact outcome for functions that are not generic; for generic ones what happens to the remaining entries of the hash map after a panic is taken from std (they are leaked). Replacing a closure by a second builder call on another thread is not modelled."
  },
  {
   "property": "C74",
   "status": "proved",
   "theorems": [
    "Mockall.C74_includes",
    "Mockall.C74_count",
    "Mockall.C74_verdict",
    "Mockall.C74_ceiling",
    "Mockall.C74_exact",
    "Mockall.C74_exclusive",
    "Mockall.C74_once",
    "Mockall.C74_history",
    "Mockall.C74_order",
    "Mockall.C74_accept",
    "Mockall.C74_overflow",
    "Mockall.C74_unsynchronised_sequence",
    "Mockall.C74_unsynchronised_overflow"
   ],
   "note": "View machine for relaxed atomics (coherence per variable, happens-before by explicit synchronisation). Not covered: executions in which a load reads from a write later in the interleaving. C74_order and C74_accept are about sequences of times(1) expectations, as C39; C74_overflow about calls that start after the expectations ahead are exhausted, as C37."
  },
  {
   "property": "C75",
   "status": "proved",
   "theorems": [
    "Mockall.C75_includes",
    "Mockall.C75_count",
    "Mockall.C75_verdict",
    "Mockall.C75_ceiling",
    "Mockall.C75_exact",
    "Mockall.C75_exclusive",
    "Mockall.C75_once",
    "Mockall.C75_order",
    "Mockall.C75_order_entered",
    "Mockall.C75_accept",
    "Mockall.C75_progress",
    "Mockall.C75_completes",
    "Mockall.C75_reentry_predicate",
    "Mockall.C75_reentry_first",
    "Mockall.C75_reentry_closure",
    "Mockall.C75_deadlock",
    "Mockall.C75_self"
   ],
   "note": "User code is decided by the schedule, so it is arbitrary. C75_exact is for an expectation without argument matching. Waiting for a mutex that the same thread holds is modelled as waiting for ever (std documents deadlock or panic). Closures that return &mut are functions as in C35."
  },
  {
   "property": "C76",
   "status": "partial",
   "theorems": [
    "Mockall.Props.C76_closure_partial",
    "Mockall.Props.C76_withf_partial",
    "Mockall.Props.C76_with_partial",
    "Mockall.Props.C76_message",
    "Mockall.Props.C76_sequence_message_partial",
    "Mockall.Props.C76_each",
    "Mockall.Props.C76_ref",
    "Mockall.Props.C76_captured"
   ],
   "note": "Missing is what does not hold: C76_captured shows that an argument called no_match_msg (or desc, in a method that returns &mut) is replaced by a variable of the generated code; names starting with __mockall_ are excluded without a counterexample for each. Functions are modelled as parameters, local variables and the expressions they pass on; macro hygiene does not help because all identifiers are resolved at the call site."
  },
  {
   "property": "C77",
   "status": "proved",
   "theorems": [
    "Mockall.Props.C77_polled",
    "Mockall.Props.C77_unpolled",
    "Mockall.Props.C77_ready"
   ],
   "note": "That rustc runs the body of an async fn at the first poll, and panics when it is polled again, is trusted. The model is Rt/System.lean with a list of futures; borrows that keep a mock from being dropped while its futures live are not needed."
  },
  {
   "property": "C78",
   "status": "proved",
   "theorems": [
    "Mockall.C78_exclusive",
    "Mockall.C78_deadlock",
    "Mockall.C78_self",
    "Mockall.C78_builder",
    "Mockall.C78_cycle",
    "Mockall.C78_terminates",
    "Mockall.C78_waits",
    "Mockall.C78_progress",
    "Mockall.C78_completes",
    "Mockall.C78_count",
    "Mockall.C78_ceiling"
   ],
   "note": "User code here is predicates, closures and the code between builder calls; destructors of what expectations own do not use mocks, and methods of mock objects are not used (C75). The ceiling assumes fewer than usize::MAX dispatched calls."
  },
  {
   "property": "C79",
   "status": "proved",
   "theorems": [
    "Mockall.Props.C79_types",
    "Mockall.Props.C79_stored",
    "Mockall.Props.C79_lifetimes",
    "Mockall.Props.C79_bounded_lifetime",
    "Mockall.Props.C79_bound_by_lifetime",
    "Mockall.Props.C79_undeclared",
    "Mockall.Props.C79_concretize",
    "Mockall.Props.C79_concretize_types"
   ],
   "note": "Scoping of named lifetimes and type parameters only; elision, 'static requirements and the rest of the type checker are not modelled. With #[concretize], where the function's parameters go away (C61), the type parameters of the struct are in scope (C79_concretize_types) and lifetimes of the function never are (C79_concretize); the other theorems are for functions without it. Lifetimes inside of Fn(..) and bounds are excluded by SimpleLts, the first with a counterexample, the second with two negative theorems."
  },
  {
   "property": "C80",
   "status": "partial",
   "theorems": [
    "Mockall.Props.C80_names_partial",
    "Mockall.Props.C80_plain_names_partial",
    "Mockall.Props.C80_names_clash",
    "Mockall.Props.C80_paths_partial",
    "Mockall.Props.C80_paths_clash"
   ],
   "note": "Holds if in the names in the paths no two underscores follow each other and none is at the end, the names of the traits do not end with an underscore and a number, and the hashes of the arguments differ (C80_paths_partial; C80_names_partial is the case without underscores). C80_names_clash: A::B and A__B have the same name, and so have A<T>::B and A::B<T>. C80_paths_clash: so have A_::B and A::_B, and Foo_5 and a Foo<..> whose arguments have the hash 5."
  },
  {
   "property": "C81",
   "status": "proved",
   "theorems": [
    "Mockall.Props.C81_instance",
    "Mockall.Props.C81_total",
    "Mockall.Props.C81_scope",
    "Mockall.Props.C81_lifetime",
    "Mockall.Props.C81_inhabited",
    "Mockall.Props.C81_lifetime_inhabited"
   ],
   "note": "Both directions. Of the code of the impls, the parts that the user wrote are left out of C81_scope."
  },
  {
   "property": "C82",
   "status": "proved",
   "theorems": [
    "Mockall.Props.C82_call",
    "Mockall.Props.C82_static",
    "Mockall.Props.C82_verify",
    "Mockall.Props.C82_verify_static",
    "Mockall.Props.C82_inhabited",
    "Mockall.Props.C82_verify_inhabited",
    "Mockall.Props.C82_program_call",
    "Mockall.Props.C82_program_static",
    "Mockall.Props.C82_program_verify",
    "Mockall.Props.C82_program_verify_static",
    "Mockall.Props.C82_module",
    "Mockall.Props.C82_module_verify",
    "Mockall.Props.C82_module_checkpoint",
    "Mockall.Props.C82_module_inhabited"
   ],
   "note": "The exceptions are part of the statement. Programs make fewer than usize::MAX uses of the mocks and pass ranges to times that C04 calls reasonable. C82_call, C82_static, C82_verify and C82_verify_static are about programs that use one mock struct, the theorems named program and module about programs with any number of mock structs and modules."
  },
  {
   "property": "C83",
   "status": "proved",
   "theorems": [
    "Mockall.Props.C83_behaves",
    "Mockall.Props.C83_module",
    "Mockall.Props.C83_checkpoint"
   ],
   "note": "Objects of the runtime are numbered in the order in which they are made by the program; C83_module is about the configurations of C62. One thread at a time."
  },
  {
   "property": "C84",
   "status": "proved",
   "theorems": [
    "Mockall.Props.C84_reference",
    "Mockall.Props.C84_exact",
    "Mockall.Props.C84_generated"
   ],
   "note": "The description is Spec/Reference.lean. C84_generated says it of the generated code of any number of mocks, through C83. One thread at a time; user code does not use the mock it is called from."
  },
  {
   "property": "C85",
   "status": "proved",
   "theorems": [
    "Mockall.Props.C85_linear",
    "Mockall.Props.C85_completes",
    "Mockall.Props.C85_serial",
    "Mockall.Props.C85_shareable",
    "Mockall.Props.C85_inhabited",
    "Mockall.Props.C85_overlap_refuted"
   ],
   "note": "Links the concurrent machine (Conc/Call.lean) and the sequential one (Rt/System.lean). C85_overlap_refuted: without independence it is false. Instance methods; atomics sequentially consistent; user code does not use the mock it is called from."
  },
  {
   "property": "C86",
   "status": "proved",
   "theorems": [
    "Mockall.Props.C86_count",
    "Mockall.Props.C86_verdict",
    "Mockall.Props.C86_ceiling",
    "Mockall.Props.C86_static_count",
    "Mockall.Props.C86_static_ceiling",
    "Mockall.Props.C86_exclusive",
    "Mockall.Props.C86_waits",
    "Mockall.Props.C86_deadlock",
    "Mockall.Props.C86_reentry",
    "Mockall.Props.C86_cross",
    "Mockall.Props.C86_progress",
    "Mockall.Props.C86_completes",
    "Mockall.Props.C86_terminates",
    "Mockall.Props.C86_includes_objects",
    "Mockall.Props.C86_includes_static",
    "Mockall.Props.C86_asks_user",
    "Mockall.Props.C86_call_asks",
    "Mockall.Props.C86_op_asks"
   ],
   "note": "Joins the machines of C75 and C78; user code is arbitrary (its results are chosen by the schedule). Atomics sequentially consistent."
  },
  {
   "property": "C87",
   "status": "proved",
   "theorems": [
    "Mockall.Props.C87_order",
    "Mockall.Props.C87_sorted",
    "Mockall.Props.C87_exact",
    "Mockall.Props.C87_entered",
    "Mockall.Props.C87_objects_first",
    "Mockall.Props.C87_before_object",
    "Mockall.Props.C87_accept",
    "Mockall.Props.C87_advance",
    "Mockall.Props.C87_accept_object"
   ],
   "note": "In the machine of C86. The counts are below the machine word (hypotheses). Expectations that a checkpoint has removed are not spoken of. Atomics sequentially consistent."
  },
  {
   "property": "C88",
   "status": "proved",
   "theorems": [
    "Mockall.Props.C88_two_effects",
    "Mockall.Props.C88_adjacent",
    "Mockall.Props.C88_progress",
    "Mockall.Props.C88_no_abort"
   ],
   "note": "The machine of C40, without its restriction to threads that do not panic. One static method; its sequences are not used by other code meanwhile."
  },
  {
   "property": "C89",
   "status": "proved",
   "theorems": [
    "Mockall.Props.C89_linearisable",
    "Mockall.Props.C89_complete",
    "Mockall.Props.C89_after",
    "Mockall.Props.C89_progress",
    "Mockall.Props.C89_owned",
    "Mockall.Props.C89_completes"
   ],
   "note": "Lifts C40's restriction that sequences are not used by other methods meanwhile. Not part of the claim: two statements that are executed at the same time and both add to the same sequence (an example shows that then no order need exist; C89_owned: it cannot happen if each sequence is added to by one thread only), the order when Contexts are dropped by panicking threads (C88), user code that uses mocks (C78, C86), mock objects used at the same time (C86, C87). Atomics sequentially consistent: with relaxed accesses a thread that is not synchronised with another may see an old place of the sequence (C74_unsynchronised_sequence). C89_complete and C89_after assume at most usize::MAX dispatched calls. C89_progress and C89_completes have no restriction on what threads do; C89_completes needs a scheduler that forgets no operation."
  },
  {
   "property": "C90",
   "status": "proved",
   "theorems": [
    "Mockall.Props.C90_keeps",
    "Mockall.Props.C90_mock",
    "Mockall.Props.C90_order",
    "Mockall.Props.C90_types",
    "Mockall.Props.C90_refuses",
    "Mockall.Props.C90_others"
   ],
   "note": "How syn parses tokens is a parameter. A compile error emitted by the macro and a panic of the macro are both failures of the model's macro. What the generated mocks are like is the subject of C62, C65, C67, C70, C71."
  },
  {
   "property": "C91",
   "status": "proved",
   "theorems": [
    "Mockall.Props.C91_types",
    "Mockall.Props.C91_call"
   ],
   "note": "About bounds on types; lifetimes are the subject of C79, impls of traits for particular arguments of the mock struct of C81. The bounds that send_syncify adds are not included. A `for<..>` in a where clause may list other lifetimes at the place of use than in the declaration (C46_bound_twice). With and without #[concretize]."
  },
  {
   "property": "C92",
   "status": "proved",
   "theorems": [
    "Mockall.Props.C92_struct",
    "Mockall.Props.C92_inherent",
    "Mockall.Props.C92_clashes",
    "Mockall.Props.C92_inherent_clashes",
    "Mockall.Props.C92_module",
    "Mockall.Props.C92_module_clashes"
   ],
   "note": "Names within one expansion. Not covered: names defined elsewhere in the user's crate, the items inside a function's private module, and which impl blocks a type matches, which is a parameter of C92_inherent. For modules, extern blocks that are not compiled are excluded, as in C62."
  },
  {
   "property": "C93",
   "status": "partial",
   "theorems": [
    "Mockall.Props.C93_method_partial",
    "Mockall.Props.C93_trait_partial",
    "Mockall.Props.C93_function",
    "Mockall.Props.C93_signature_changes",
    "Mockall.Props.C93_anonymous",
    "Mockall.Props.C93_inhabited"
   ],
   "note": "The last sentence, which the documentation promises, is false for every such method: the method of the mock returns the box too (C93_signature_changes). Of Self and '_ in places where the macro does not look nothing is said (Visible, see C42 and C43); impl Debug + '_ is such a case (C93_anonymous). The rest is proved. Whether a trait object can be made of the bounds is up to the compiler."
  },
  {
   "property": "C94",
   "status": "proved",
   "theorems": [
    "Mockall.Props.C94_struct",
    "Mockall.Props.C94_cfg",
    "Mockall.Props.C94_function",
    "Mockall.Props.C94_generic",
    "Mockall.Props.C94_static",
    "Mockall.Props.C94_context",
    "Mockall.Props.C94_sequence",
    "Mockall.Props.C94_given",
    "Mockall.Props.C94_inhabited",
    "Mockall.Props.C94_cfg_inhabited"
   ],
   "note": "The rules by which Send and Sync are derived, and those for the types of std and for Fragile, are the specification (Spec/Auto.lean). A program that defines no type twice is assumed (C92 says when mocks respect this). Generic arguments of generated types are left out: parameters stand for the arguments of the same names (C91). C94_cfg says the same of the part that is compiled under a configuration."
  },
  {
   "property": "C95",
   "status": "proved",
   "theorems": [
    "Mockall.Props.C95_types",
    "Mockall.Props.C95_methods",
    "Mockall.Props.C95_lifetimes",
    "Mockall.Props.C95_method_lifetimes",
    "Mockall.Props.C95_struct",
    "Mockall.Props.C95_method_inhabited",
    "Mockall.Props.C95_guard_unused",
    "Mockall.Props.C95_methods_inhabited"
   ],
   "note": "The exception is part of the statement and C95_lifetimes is an equivalence; C95_guard_unused is an instance of it. For lifetimes it is assumed that none is used inside of Fn(..) in the return type (as in C79_lifetimes) and none is called '__mockall_lt. Types of std and of Mockall around the types of the user are left out."
  },
  {
   "property": "C96",
   "status": "proved",
   "theorems": [
    "Mockall.Props.C96_alone",
    "Mockall.Props.C96_interleaved",
    "Mockall.Props.C96_generic",
    "Mockall.Props.C96_generated",
    "Mockall.Props.C96_inhabited",
    "Mockall.Props.C96_interleaved_inhabited",
    "Mockall.Props.C96_shared"
   ],
   "note": "Objects that are not used are still created, so that objects keep their numbers. C96_shared is a program with a shared sequence for which it fails. One thread; for several see C85 and C89. C96_generated: for generated mocks, with the objects and static methods that stand for them (C84)."
  },
  {
   "property": "C97",
   "status": "proved",
   "theorems": [
    "Mockall.Props.C97_forgotten",
    "Mockall.Props.C97_context",
    "Mockall.Props.C97_inhabited",
    "Mockall.Props.C97_context_inhabited",
    "Mockall.Props.C97_failed",
    "Mockall.Props.C97_sequence",
    "Mockall.Props.C97_poisoned"
   ],
   "note": "The whole-program form of C24_like_new; C97_context is the same for static methods whose Context is dropped (not for one function of a module whose checkpoint() was called before). C97_failed, C97_sequence and C97_poisoned show that the conditions are needed. Methods without type parameters (with them the order of verification is open), one thread."
  }
 ]
}
