{
 "claims": [
  {
   "property": "C01",
   "status": "partial",
   "theorems": [
    "Dern.Props.c01_encoder_is_utf8",
    "Dern.Props.c01_encoder_refuses",
    "Dern.Props.c01_round_trip_partial",
    "Dern.Props.c01_text_round_trip_partial",
    "Dern.Props.c01_nul_does_not_round_trip"
   ],
   "note": "All scalar values except U+0000, for which the property is false of the code (c01_nul_does_not_round_trip)."
  },
  {
   "property": "C02",
   "status": "partial",
   "theorems": [
    "Dern.Props.c02_decoding_canonical_partial",
    "Dern.Props.c02_no_out_of_bounds_read",
    "Dern.Props.c02_string_from_buffer_total",
    "Dern.Props.c02_string_longest_partial",
    "Dern.Props.c02_longest_unique",
    "Dern.Props.c02_decoding_injective",
    "Dern.Props.c02_surrogate_accepted",
    "Dern.Props.c02_above_unicode_accepted",
    "Dern.Props.c02_surrogate_text_aborts",
    "Dern.Props.c02_decode_from_buffer_ignores_index"
   ],
   "note": "The code decodes surrogates and numbers up to 0x1FFFFF (negative theorems). Proved: consumed octets are the shortest form of the decoded number, no read outside; a string made from any octets has exactly the longest well-formed text at their beginning and an error exactly at the first octet not used (c02_string_longest_partial, c02_longest_unique)."
  },
  {
   "property": "C03",
   "status": "partial",
   "theorems": [
    "Dern.Props.c03_position_exact",
    "Dern.Props.c03_position_at_end",
    "Dern.Props.c03_position_exact_history_partial",
    "Dern.Props.c03_stale_after_append"
   ],
   "note": "Exact for any text given at once and for histories that never drain the input; stale line/column after appending to a drained input (c03_stale_after_append)."
  },
  {
   "property": "C04",
   "status": "proved",
   "theorems": [
    "Dern.Props.c04_never_backwards",
    "Dern.Props.c04_progress",
    "Dern.Props.c04_bounded",
    "Dern.Props.c04_terminates",
    "Dern.Props.c04_complete",
    "Dern.Props.c04_error_token_may_stay"
   ],
   "note": "Whatever the ctype.h functions answer; an error token may consume nothing (c04_error_token_may_stay), the reader stops there."
  },
  {
   "property": "C05",
   "status": "partial",
   "theorems": [
    "Dern.Props.c05_integer_literal_partial",
    "Dern.Props.c05_too_many_digits_abort",
    "Dern.Props.c05_int_min_literal_undefined",
    "Dern.Props.c05_out_of_range_wraps",
    "Dern.Props.c05_unclosed_accepted"
   ],
   "note": "All four bases, both signs, any whitespace; false for -2^31 (undefined behaviour) and for more than 256 digits (abort, proved for every such literal). pow() is assumed exact when its result is representable."
  },
  {
   "property": "C06",
   "status": "partial",
   "theorems": [
    "Dern.Props.c06_integer_roundtrip_partial",
    "Dern.Props.c06_int_min_does_not_read_back"
   ],
   "note": "All 32-bit integers except -2^31, for which the property is false."
  },
  {
   "property": "C07",
   "status": "partial",
   "theorems": [
    "Dern.Props.c07_string_roundtrip_partial",
    "Dern.Props.c07_bracket_does_not_read_back",
    "Dern.Props.c07_bar_does_not_read_back"
   ],
   "note": "All strings of printable scalar values without ']' and '|'; false with them (witnesses)."
  },
  {
   "property": "C08",
   "status": "partial",
   "theorems": [
    "Dern.Props.c08_character_roundtrip_partial",
    "Dern.Props.c08_nul_is_read_as_empty",
    "Dern.Props.c08_empty_does_not_read_back"
   ],
   "note": "Every scalar value except U+0000; the empty character value obtained from |00| does not read back."
  },
  {
   "property": "C09",
   "status": "proved",
   "theorems": [
    "Dern.Props.c09_gap_insignificant",
    "Dern.Props.c09_only_gap_is_end",
    "Dern.Props.c09_unclosed_comment"
   ],
   "note": "Any gap of whitespace, line comments and closed block comments; equality of both the token and the unread rest."
  },
  {
   "property": "C10",
   "status": "proved",
   "theorems": [
    "Dern.Props.c10_read_print",
    "Dern.Props.c10_print_injective"
   ],
   "note": "Trees of vectors over atoms that read back; which atoms do is given by Readable (reals by hypothesis, since %g is an oracle)."
  },
  {
   "property": "C11",
   "status": "proved",
   "theorems": [
    "Dern.Props.c11_value_is_balanced",
    "Dern.Props.c11_truncated_is_error",
    "Dern.Props.c11_parser_safe"
   ],
   "note": "Any value returned comes from balanced tokens; an unclosed list in a lexically correct text is an error value, never an abort."
  },
  {
   "property": "C12",
   "status": "proved",
   "theorems": [
    "Dern.Props.c12_quote",
    "Dern.Props.c12_backquote_vector",
    "Dern.Props.c12_backquote_other",
    "Dern.Props.c12_failure_passed_on",
    "Dern.Props.c12_nested"
   ],
   "note": "Quote and backquote, nesting, and failures passed on."
  },
  {
   "property": "C13",
   "status": "partial",
   "theorems": [
    "Dern.Props.c13_sound_partial",
    "Dern.Props.c13_decides_partial",
    "Dern.Props.c13_reflexive",
    "Dern.Props.c13_reflexive_data_partial",
    "Dern.Props.c13_symmetric_partial",
    "Dern.Props.c13_transitive_partial",
    "Dern.Props.c13_nan_not_transitive",
    "Dern.Props.c13_overflow"
   ],
   "note": "Proved: reflexivity for every value; on regular data (no NaN, texts of scalar values without U+0000, sizes below 2^31, hash maps with nil/boolean/integer/text keys, integers in a window of 2^31) equality returns and is exactly sameness of data, hence symmetric and transitive. False in general: NaN equals every number (c13_nan_not_transitive), far apart integers overflow (c13_overflow). Missing: functions, macros, environments, C data, hash maps with other keys."
  },
  {
   "property": "C14",
   "status": "partial",
   "theorems": [
    "Dern.Props.c14_consistent",
    "Dern.Props.c14_total_order_partial",
    "Dern.Props.c14_numbers_partial",
    "Dern.Props.c14_integers",
    "Dern.Props.c14_hash_maps_not_antisymmetric",
    "Dern.Props.c14_nan"
   ],
   "note": "Proved: the five comparison functions always agree with each other; on plain data (as C13, without hash maps) they realise one total preorder whose equivalence is sameness, and numbers are ordered by value. False in general: c14_hash_maps_not_antisymmetric, c14_nan, c13_overflow."
  },
  {
   "property": "C15",
   "status": "partial",
   "theorems": [
    "Dern.Props.c15_equal_hash_partial",
    "Dern.Props.c15_keys_lawful_partial",
    "Dern.Props.c15_lookup_partial",
    "Dern.Props.c15_int_real",
    "Dern.Props.c15_zeros",
    "Dern.Props.c15_vectors",
    "Dern.Props.c15_build_metadata",
    "Dern.Props.c15_nul"
   ],
   "note": "Proved: equal values of the same kind that are no containers, no zero reals, and versions with the same build metadata have the same hash; nil/boolean/integer/text keys are lawful in the sense of C17, and a lookup under an equal key finds the entry after every history. False in general: c15_int_real, c15_zeros, c15_vectors, c15_build_metadata, c15_nul."
  },
  {
   "property": "C16",
   "status": "partial",
   "theorems": [
    "Dern.Props.c16_data_partial",
    "Dern.Props.c16_original_unchanged",
    "Dern.Props.c16_fresh",
    "Dern.Props.c16_disjoint",
    "Dern.Props.c16_independent",
    "Dern.Props.c16_equal_partial",
    "Dern.Props.c16_functions_crash",
    "Dern.Props.c16_queue_loses_maximum"
   ],
   "note": "data without special forms, builtins and ports; docs of copies are not described; copying functions, macros and environments never returns (proved); the copy of a queue loses its maximal length (proved); copying of cyclic values does not terminate"
  },
  {
   "property": "C17",
   "status": "partial",
   "theorems": [
    "Dern.Props.c17_history",
    "Dern.Props.c17_lookup",
    "Dern.Props.c17_remove_reports",
    "Dern.Props.c17_index",
    "Dern.Props.c17_negative_index",
    "Dern.Props.c17_assignments_partial",
    "Dern.Props.c17_put_twice_not_a_map",
    "Dern.Props.c17_minus_one_is_not_last"
   ],
   "note": "Every history of put/remove/clear under every lawful compare/hash pair, incl. growth and the load factor assertion: entries, count, lookup, iteration, indices. Last-write-wins holds for histories that remove before putting (c17_assignments_partial; what environments and = do); plain put twice under one key breaks it (c17_put_twice_not_a_map). Release callbacks not modelled."
  },
  {
   "property": "C18",
   "status": "proved",
   "theorems": [
    "Dern.Props.c18_vector_is_a_sequence",
    "Dern.Props.c18_get",
    "Dern.Props.c18_insert_beyond",
    "Dern.Props.c18_gap_exposes_removed_element",
    "Dern.Props.c18_shallow_copy"
   ],
   "note": "Vector of amalgamated octaspire_vector.c: every operation history refines the plain sequence (answers, elements, released elements), reads incl. negative indices, writes past the end, shallow copy; witness that the gap left by a write past the end can expose a removed element."
  },
  {
   "property": "C19",
   "status": "proved",
   "theorems": [
    "Dern.Props.c19_queue_is_fifo",
    "Dern.Props.c19_bounded",
    "Dern.Props.c19_keeps_most_recent"
   ],
   "note": "Queue on top of the linked list, with eviction; c19_bounded and c19_keeps_most_recent are the bounded case spelled out."
  },
  {
   "property": "C20",
   "status": "proved",
   "theorems": [
    "Dern.Props.c20_list_is_a_sequence",
    "Dern.Props.c20_get_on_empty_aborts"
   ],
   "note": "Linked list in a node memory: null/dangling accesses are faults. Excluded point (index lookup other than 0/-1 on an empty list) is shown to abort."
  },
  {
   "property": "C21",
   "status": "partial",
   "theorems": [
    "Dern.Props.c21_precedence_partial",
    "Dern.Props.c21_total_order_partial",
    "Dern.Props.c21_comparison_functions",
    "Dern.Props.c21_large_major_is_smaller",
    "Dern.Props.c21_large_major_is_equal",
    "Dern.Props.c21_not_transitive"
   ],
   "note": "Exact SemVer precedence and total order for versions whose numbers are below 2^31 (all that int diff can tell apart) and whose identifiers are texts without U+0000; beyond, the order is wrong, not antisymmetric and not transitive (three witnesses)."
  },
  {
   "property": "C22",
   "status": "partial",
   "theorems": [
    "Dern.Props.c22_collect_partial",
    "Dern.Props.c22_observations",
    "Dern.Props.c22_docvec_released",
    "Dern.Props.c22_function_return_released"
   ],
   "note": "Full for everything reachable from the VM stack, on every well-formed heap including cycles, with everything observable of the kept values unchanged. Two kinds of references are not followed by the collector: the documentation vector of a function and the value of a pending return (c22_docvec_released, c22_function_return_released)."
  },
  {
   "property": "C23",
   "status": "proved",
   "theorems": [
    "Dern.Props.c23_unique_plugins",
    "Dern.Props.c23_never_reused_plugins",
    "Dern.Props.c23_released_stays_plugins",
    "Dern.Props.c23_identity_plugins",
    "Dern.Props.c23_unique",
    "Dern.Props.c23_never_reused",
    "Dern.Props.c23_released_stays",
    "Dern.Props.c23_identity"
   ],
   "note": "Unique ids: distinct at any time and over any history of operations, evaluations and collections; === tests identity. For the whole standard library (outsideLibrary: every builtin modelled, whatever comes from outside the machine arbitrary); the _plugins versions cover further functions under Library.Safe (they make up no references)."
  },
  {
   "property": "C24",
   "status": "partial",
   "theorems": [
    "Dern.Props.c24_balanced_plugins",
    "Dern.Props.c24_no_abort_plugins",
    "Dern.Props.c24_special_plugins",
    "Dern.Props.c24_builtin_plugins",
    "Dern.Props.c24_balanced",
    "Dern.Props.c24_no_abort_partial",
    "Dern.Props.c24_special",
    "Dern.Props.c24_builtin",
    "Dern.Props.c24_open_aborts",
    "Dern.Props.c24_close_aborts",
    "Dern.Props.c24_open_program_aborts"
   ],
   "note": "Stack exactly restored by every evaluation, every special form and every builtin of the whole standard library, from every reachable state, whatever comes from outside; never an abort for an unbalanced stack in a program that calls no file-opening function or port-close with an unfit argument. Partial because the code falsifies the rest: (input-file-open 5), (output-file-open 5), (io-file-open 5) and (port-close 5) check the height of the stack before popping and abort (c24_open_aborts, c24_close_aborts, c24_open_program_aborts)."
  },
  {
   "property": "C25",
   "status": "partial",
   "theorems": [
    "Dern.Props.c25_evaluate_partial",
    "Dern.Props.c25_read_partial",
    "Dern.Props.c25_without_partial",
    "Dern.Props.c25_with_partial",
    "Dern.Props.c25_fault_partial",
    "Dern.Props.c25_witness_return",
    "Dern.Props.c25_witness_docvec",
    "Dern.Props.c25_witness_nil"
   ],
   "note": "Simulation between the collecting machine and the machine that never collects, for every schedule of collections: two evaluations that return agree in result, output, exit status, evaluations made and live values; an evaluation without collections is reproduced with collections at any moments unless a released value is used. Missing: that no released value is used, which is false of the code: c25_witness_return (pending return), c25_witness_docvec (documentation vector kept by =), c25_witness_nil (name nil rebound) are concrete programs whose outcome depends on the collections."
  },
  {
   "property": "C26",
   "status": "proved",
   "theorems": [
    "Dern.Props.c26_bound",
    "Dern.Props.c26_unbound",
    "Dern.Props.c26_body",
    "Dern.Props.c26_fn",
    "Dern.Props.c26_fn_operator"
   ],
   "note": "For every reachable state: symbol lookup, unbound symbols, fn remembers its environment, function bodies run in a new environment enclosed by it, nothing else is bound or changed by the call itself."
  },
  {
   "property": "C27",
   "status": "proved",
   "theorems": [
    "Dern.Props.c27_fixed",
    "Dern.Props.c27_rest",
    "Dern.Props.c27_accepts"
   ],
   "note": "Both directions, fixed and rest formals, for every function and every argument list; a function whose only formal is ... aborts when called (shown), fn's own check looks for '.' (shown)."
  },
  {
   "property": "C28",
   "status": "proved",
   "theorems": [
    "Dern.Props.c28_builtin",
    "Dern.Props.c28_function",
    "Dern.Props.c28_operator",
    "Dern.Props.c28_once",
    "Dern.Props.c28_stops",
    "Dern.Props.c28_error_is_result"
   ],
   "note": "Builtins and functions, called by name or through any operator form, from every reachable state; the arguments are read from the call form as it is at that moment (an argument may change the form), c28_once/c28_stops give the plain case."
  },
  {
   "property": "C29",
   "status": "proved",
   "theorems": [
    "Dern.Props.c29_events",
    "Dern.Props.c29_if",
    "Dern.Props.c29_if_operator",
    "Dern.Props.c29_select",
    "Dern.Props.c29_select_operator"
   ],
   "note": "For every reachable state and every call of if/select (by name, or through any operator form): the exact sequence of evaluations, the result, and that nothing else happens between them. Covers wrong argument counts, error tests, tests of other kinds, a test that is a function (it is called), default not last."
  },
  {
   "property": "C30",
   "status": "proved",
   "theorems": [
    "Dern.Props.c30_and",
    "Dern.Props.c30_or",
    "Dern.Props.c30_and_operator",
    "Dern.Props.c30_or_operator",
    "Dern.Props.c30_nothing_after"
   ],
   "note": "For every reachable state and every call of and/or: the exact sequence of evaluations up to the deciding value (or a pending return), the result, nothing evaluated afterwards."
  },
  {
   "property": "C31",
   "status": "proved",
   "theorems": [
    "Dern.Props.c31_while",
    "Dern.Props.c31_while_operator",
    "Dern.Props.c31_pass_forms",
    "Dern.Props.c31_turns_forms"
   ],
   "note": "For every reachable state and every call of while: k complete passes (test true, all body forms in order), then the end; if the test is false the result is a new integer k. A count beyond INT32_MAX is undefined behaviour in C and outside the statement."
  },
  {
   "property": "C32",
   "status": "partial",
   "theorems": [
    "Dern.Props.c32_return",
    "Dern.Props.c32_ends_partial",
    "Dern.Props.c32_result",
    "Dern.Props.c32_cleared_partial",
    "Dern.Props.c32_call_partial",
    "Dern.Props.c32_return_in_argument_ends_callee",
    "Dern.Props.c32_return_at_top_level_leaks",
    "Dern.Props.c32_return_in_failing_form_leaks",
    "Dern.Props.c32_second_return_aborts"
   ],
   "note": "return, the end of the body, the result and the cleared pending value are proved for every reachable state. The full property is false of the code, shown by four witnesses: return among arguments ends the callee, return at top level and return in a failing form leak into a later unrelated call, a second pending return aborts."
  },
  {
   "property": "C33",
   "status": "proved",
   "theorems": [
    "Dern.Props.c33_nothing_evaluated",
    "Dern.Props.c33_exit",
    "Dern.Props.c33_pending_builtin_runs"
   ],
   "note": "After exit every evaluation returns a new nil at once, makes no evaluation and changes nothing (every reachable state, form, environment); exit itself sets flag and exit code; functions whose arguments have been evaluated still run (shown)."
  },
  {
   "property": "C34",
   "status": "partial",
   "theorems": [
    "Dern.Props.c34_plus_partial",
    "Dern.Props.c34_minus_partial",
    "Dern.Props.c34_times_partial",
    "Dern.Props.c34_mod_partial",
    "Dern.Props.c34_remainder",
    "Dern.Props.c34_slash",
    "Dern.Props.c34_plus_returns",
    "Dern.Props.c34_times_returns",
    "Dern.Props.c34_minus_returns",
    "Dern.Props.c34_mod_returns",
    "Dern.Props.c34_slash_returns",
    "Dern.Props.c34_intermediate_overflow",
    "Dern.Props.c34_product_overflow",
    "Dern.Props.c34_mod_overflow"
   ],
   "note": "Exact for every argument list of integers whenever the call returns; it returns (unless memory management fails) if all intermediate results fit; zero divisors of mod and / are errors. Partial because intermediate overflow with a representable result is undefined behaviour (witnesses for +, * and mod -2147483648 -1)."
  },
  {
   "property": "C35",
   "status": "proved",
   "theorems": [
    "Dern.Props.c35_define",
    "Dern.Props.c35_name_evaluates",
    "Dern.Props.c35_assign",
    "Dern.Props.c35_equal_after"
   ],
   "note": "c35_define: every call of define (variables and functions, in the current or a given environment) from every reachable state: the exact evaluations, every refusal and that it changes nothing, the new binding, all other names unchanged; c35_name_evaluates: the name then evaluates to the value. c35_assign: every call of = with two values, and with three values for vectors and environments ((= c i v) on strings and hash maps is not modelled); c35_equal_after: the value then denotes what the other denoted (data without errors or functions, and not a part of each other)."
  },
  {
   "property": "C36",
   "status": "partial",
   "theorems": [
    "Dern.Props.c36_reads_partial",
    "Dern.Props.c36_no_text",
    "Dern.Props.c36_in_order",
    "Dern.Props.c36_hangs",
    "Dern.Props.c36_hang_text"
   ],
   "note": "c36_reads_partial: every reading of a text, from every reachable state: each form is parsed (C05-C08), built on the heap, evaluated in the global environment, completely before the next is read; first error (with line number) or syntax error or form without a value ends it; after exit nothing happens any more. c36_in_order: the corollary for texts that consist of forms. c36_hangs: after (exit) a text such as ] is read for ever. Missing: nothing is claimed once a program has changed the constants nil, true or false (which takes a symbol made at run time); the values of reals and the texts of messages are arbitrary."
  },
  {
   "property": "C37",
   "status": "partial",
   "theorems": [
    "Dern.Props.c37_code_point_order_partial",
    "Dern.Props.c37_equal_partial",
    "Dern.Props.c37_order_partial",
    "Dern.Props.c37_is_equal",
    "Dern.Props.c37_nul_hides_the_rest"
   ],
   "note": "All strings of Unicode scalar values without U+0000; strcmp ends at U+0000 (c37_nul_hides_the_rest). is_equal is proved for all strings."
  },
  {
   "property": "C38",
   "status": "proved",
   "theorems": [
    "Dern.Props.c38_add",
    "Dern.Props.c38_add_raises",
    "Dern.Props.c38_subtract",
    "Dern.Props.c38_undo",
    "Dern.Props.c38_subtract_refused",
    "Dern.Props.c38_mixed_refused",
    "Dern.Props.c38_prerelease",
    "Dern.Props.c38_refused_prerelease_half_done",
    "Dern.Props.c38_add_wraps"
   ],
   "note": "All versions and amounts; wrap-around at 2^64 and half-done refused pre-release subtraction are shown as witnesses."
  },
  {
   "property": "C39",
   "status": "proved",
   "theorems": [
    "Dern.Props.c39_do",
    "Dern.Props.c39_do_operator",
    "Dern.Props.c39_prefix"
   ],
   "note": "For every reachable state and every call of do: the forms are evaluated in order, up to the first error or pending return; the result is the value of the last one evaluated."
  },
  {
   "property": "C40",
   "status": "proved",
   "theorems": [
    "Dern.Props.c40_for",
    "Dern.Props.c40_for_operator",
    "Dern.Props.c40_loop_complete",
    "Dern.Props.c40_loop_left",
    "Dern.Props.c40_counter_exact",
    "Dern.Props.c40_multiples",
    "Dern.Props.c40_multiples_one"
   ],
   "note": "Exact sequence of evaluations and bindings for every call of for, with everything in between Quiet. Quirks of the code are part of the statement: the step size is also the first form of the body, the start of a range is re-read in each turn. The order of the bindings of an environment is not modelled; iterating a port is outside of the model."
  },
  {
   "property": "C41",
   "status": "proved",
   "theorems": [
    "Dern.Props.c41_strings_are_texts",
    "Dern.Props.c41_new_text"
   ],
   "note": "octaspire_string as two growing blocks (characters, cached octets). Combining a string with itself is excluded by the property: it reads a block that has just been shrunk."
  },
  {
   "property": "C42",
   "status": "proved",
   "theorems": [
    "Dern.Props.c42_levenshtein_is_edit_distance",
    "Dern.Props.c42_metric"
   ],
   "note": "The full matrix algorithm against the least number of edits (an inductive relation), for all texts; metric laws derived."
  },
  {
   "property": "C43",
   "status": "proved",
   "theorems": [
    "Dern.Props.c43_iterator",
    "Dern.Props.c43_every_arrangement_once"
   ],
   "note": "Heap's method as coded, for every vector length."
  },
  {
   "property": "C44",
   "status": "partial",
   "theorems": [
    "Dern.Props.c44_find_first",
    "Dern.Props.c44_remove_all",
    "Dern.Props.c44_remove_empty_hangs",
    "Dern.Props.c44_starts_with",
    "Dern.Props.c44_ends_with",
    "Dern.Props.c44_contains",
    "Dern.Props.c44_contains_only",
    "Dern.Props.c44_find_char",
    "Dern.Props.c44_find_string",
    "Dern.Props.c44_split",
    "Dern.Props.c44_pieces",
    "Dern.Props.c44_split_empty_aborts"
   ],
   "note": "Proved for every search, for removal of a non-empty text and for a non-empty delimiter. The code falsifies the rest: removing the empty text from a non-empty one never ends (c44_remove_empty_hangs), splitting a non-empty text by the empty text fails an assertion (c44_split_empty_aborts)."
  },
  {
   "property": "C45",
   "status": "proved",
   "theorems": [
    "Dern.Props.c45_predicate",
    "Dern.Props.c45_types_disjoint"
   ],
   "note": "Every type predicate modelled, called by name in any reached state."
  },
  {
   "property": "C46",
   "status": "partial",
   "theorems": [
    "Dern.Props.c46_max_partial",
    "Dern.Props.c46_min_partial",
    "Dern.Props.c46_integers",
    "Dern.Props.c46_overflow"
   ],
   "note": "Proved for values that C14 can order (data of one kind within a window of 2^31 for integers); c46_overflow shows that the code has undefined behaviour for integers farther apart."
  },
  {
   "property": "C47",
   "status": "proved",
   "theorems": [
    "Dern.Props.c47_starts_with",
    "Dern.Props.c47_distance",
    "Dern.Props.c47_find",
    "Dern.Props.c47_split"
   ],
   "note": "find: a text (string or symbol) and one key; a character key holding several code points is looked for by its first code point only, and a real by some text (the %g conversion is not modelled). Counts and positions are cut to int32_t as in the code."
  },
  {
   "property": "C48",
   "status": "proved",
   "theorems": [
    "Dern.Props.c48_pop_back",
    "Dern.Props.c48_pop_front",
    "Dern.Props.c48_append",
    "Dern.Props.c48_remove",
    "Dern.Props.c48_push",
    "Dern.Props.c48_list",
    "Dern.Props.c48_queue",
    "Dern.Props.c48_queue_max"
   ],
   "note": "Every call by name in every reached state; results and effects stated on the heap before and after, with frame. The += theorem for vectors and the one for lists and queues have the kind of the first argument as precondition; other kinds of += are other properties."
  },
  {
   "property": "C49",
   "status": "proved",
   "theorems": [
    "Dern.Props.c49_find",
    "Dern.Props.c49_minus",
    "Dern.Props.c49_len",
    "Dern.Props.c49_element"
   ],
   "note": "Every call by name in every reached state; results and effects stated on the heap before and after, with frame. Preconditions: find and -= on vectors of data (C13) with keys that are data, and keys of -= that do not contain the vector; other kinds of first arguments are other properties."
  },
  {
   "property": "C50",
   "status": "partial",
   "theorems": [
    "Dern.Props.c50_hash_map_partial",
    "Dern.Props.c50_plus_partial",
    "Dern.Props.c50_minus_partial",
    "Dern.Props.c50_ln_at_partial",
    "Dern.Props.c50_find_partial",
    "Dern.Props.c50_set_partial"
   ],
   "note": "Every call by name in every reached state. Missing: a key that is added although it is present already (the code keeps two values under one key and stops when they are read: outside of the model); keys changed in place while they are in a hash map (the model uses the present hash of a key); keys that are containers or reals."
  },
  {
   "property": "C51",
   "status": "partial",
   "theorems": [
    "Dern.Props.c51_reads_back",
    "Dern.Props.c51_to_string_partial",
    "Dern.Props.c51_string_format_partial",
    "Dern.Props.c51_print_partial",
    "Dern.Props.c51_println_partial",
    "Dern.Props.c51_ascii",
    "Dern.Props.c51_not_utf8",
    "Dern.Props.c51_print_readably"
   ],
   "note": "Every call by name in every reached state, data of any depth including hash maps, functions and macros (their names), containers of all of them; every format string (a {} after an odd number of ' is no place, the ' stay). Missing: environments, ports, builtins and special forms, and what contains them. print writes one octet for a character of a format string outside of ASCII, so the full property is false there (c51_ascii, c51_not_utf8)."
  },
  {
   "property": "C52",
   "status": "proved",
   "theorems": [
    "Dern.Props.c52_join",
    "Dern.Props.c52_append",
    "Dern.Props.c52_minus",
    "Dern.Props.c52_strip",
    "Dern.Props.c52_overwrite"
   ],
   "note": "Appended texts must be Unicode text without NUL; appending a text to itself reads released memory in the code and is excluded."
  },
  {
   "property": "C53",
   "status": "proved",
   "theorems": [
    "Dern.Props.c53_incr",
    "Dern.Props.c53_decr",
    "Dern.Props.c53_plusEq",
    "Dern.Props.c53_minusEq",
    "Dern.Props.c53_plusChar",
    "Dern.Props.c53_minusChar",
    "Dern.Props.c53_plusUnfit",
    "Dern.Props.c53_minusUnfit"
   ],
   "note": "All cases of ++, --, += and -= with numbers, characters and unfit first arguments; results that are reals are only said to be reals (C double arithmetic is not modelled). Runs that end in undefined behaviour or an abort (32-bit overflow, (+= i 1.5 1), (+= c c)) give no result and are excluded, as everywhere. For += on characters the appended texts must be ones C strings can hold."
  },
  {
   "property": "C54",
   "status": "proved",
   "theorems": [
    "Dern.Props.c54_template",
    "Dern.Props.c54_template_operator"
   ],
   "note": "template by its name and by any operator form; the new vectors are given with their elements in the final state"
  },
  {
   "property": "C55",
   "status": "proved",
   "theorems": [
    "Dern.Props.c55_evaluation",
    "Dern.Props.c55_pushed",
    "Dern.Props.c55_host"
   ],
   "note": "For libraries that satisfy Library.Safe (the I/O builtins that are not modelled obey the same discipline as the modelled ones); values behind a protected value that programs know too may be cut off by programs, so they are not claimed"
  },
  {
   "property": "C56",
   "status": "proved",
   "theorems": [
    "Dern.Props.c56_generate",
    "Dern.Props.c56_generate_operator"
   ],
   "note": "Calls whose evaluation ends (the code aborts if a generator for a string gives no character, if a vector is shorter than the longest one, and for strings with mapping unless all vectors are empty); the generator may change the result, so that each turn is related to the collection as the generator left it."
  },
  {
   "property": "C57",
   "status": "proved",
   "theorems": [
    "Dern.Props.c57_stands_int",
    "Dern.Props.c57_stands_str",
    "Dern.Props.c57_equal",
    "Dern.Props.c57_equal_operator",
    "Dern.Props.c57_same",
    "Dern.Props.c57_same_operator",
    "Dern.Props.c57_different",
    "Dern.Props.c57_different_operator",
    "Dern.Props.c57_at_most",
    "Dern.Props.c57_at_most_operator",
    "Dern.Props.c57_less",
    "Dern.Props.c57_less_operator",
    "Dern.Props.c57_greater",
    "Dern.Props.c57_greater_operator",
    "Dern.Props.c57_at_least",
    "Dern.Props.c57_at_least_operator"
   ],
   "note": "Equality is characterised for the data of C13 and order for those of C14 (others can be compared too; the evaluation order and the short circuit are proved for all values). Integers 2^31 or more apart are undefined behaviour in the code, the model has no result for them."
  },
  {
   "property": "C58",
   "status": "proved",
   "theorems": [
    "Dern.Props.c58_quote",
    "Dern.Props.c58_quote_operator",
    "Dern.Props.c58_eval",
    "Dern.Props.c58_eval_operator"
   ],
   "note": "Errors of the arguments are passed on like other values (as in the code). The final content of the new form is claimed right before it is evaluated."
  },
  {
   "property": "C59",
   "status": "partial",
   "theorems": [
    "Dern.Props.c59_operator_partial",
    "Dern.Props.c59_call_partial",
    "Dern.Props.c59_made",
    "Dern.Props.c59_made_operator"
   ],
   "note": "Macro calls by name and through any operator form: arguments unevaluated, body and then its value evaluated in the macro's new environment, re-expansion when the outcome is a macro call. Missing: an outcome that begins with a vector (its first element is evaluated with side effects by the code; no claim is made there)."
  },
  {
   "property": "C60",
   "status": "proved",
   "theorems": [
    "Dern.Props.c60_not",
    "Dern.Props.c60_uid",
    "Dern.Props.c60_doc",
    "Dern.Props.c60_vector",
    "Dern.Props.c60_env_new",
    "Dern.Props.c60_env_current",
    "Dern.Props.c60_env_global",
    "Dern.Props.c60_abort",
    "Dern.Props.c60_uid_distinct"
   ],
   "note": "all eight functions, called by name; uid has no result for numbers above int32 (the program aborts)"
  },
  {
   "property": "C61",
   "status": "proved",
   "theorems": [
    "Dern.Props.c61_to_integer",
    "Dern.Props.c61_to_real",
    "Dern.Props.c61_character",
    "Dern.Props.c61_math",
    "Dern.Props.c61_reduced_fits",
    "Dern.Props.c61_numeral",
    "Dern.Props.c61_integral_unique",
    "Dern.Props.c61_back"
   ],
   "note": "what strtod and the functions of mathematics give is left open (any real); that a new real results and which arguments are errors is proved.  The octets of a text that is not clean (contains a code point that is not a Unicode scalar value or zero) give some number."
  },
  {
   "property": "C62",
   "status": "proved",
   "theorems": [
    "Dern.Props.c62_copy",
    "Dern.Props.c62_plus_vector"
   ],
   "note": "copying C data (values of libraries written in C) is outside of the model.  If the predicate turns the function `copy` itself into `return`, the result is in addition recorded as the value returned (RunsThrough)."
  },
  {
   "property": "C63",
   "status": "proved",
   "theorems": [
    "Dern.Props.c63_step",
    "Dern.Props.c63_step_unique",
    "Dern.Props.c63_plus",
    "Dern.Props.c63_minus",
    "Dern.Props.c63_plusEq",
    "Dern.Props.c63_minusEq"
   ],
   "note": ""
  },
  {
   "property": "C64",
   "status": "proved",
   "theorems": [
    "Dern.Props.c64_events",
    "Dern.Props.c64_read_string",
    "Dern.Props.c64_read_path",
    "Dern.Props.c64_require"
   ],
   "note": "read-and-eval-string/-path and require by relations to C36's Session; texts of files arbitrary; that a library is loaded already is an arbitrary answer; loading of shared libraries is not modelled. c64_events: all entries of a trace are evaluations."
  },
  {
   "property": "C65",
   "status": "proved",
   "theorems": [
    "Dern.Props.c65_open",
    "Dern.Props.c65_io_open",
    "Dern.Props.c65_ask",
    "Dern.Props.c65_close",
    "Dern.Props.c65_number",
    "Dern.Props.c65_seek",
    "Dern.Props.c65_read",
    "Dern.Props.c65_write",
    "Dern.Props.c65_host"
   ],
   "note": "Ports and host functions for arbitrary answers of the operating system; what is in a file, or where a port stands, is not modelled. A single argument of the wrong type for the open functions and port-close never returns (C24)."
  },
  {
   "property": "C66",
   "status": "proved",
   "theorems": [
    "Dern.Props.c66_howto",
    "Dern.Props.c66_howto_operator",
    "Dern.Props.c66_found"
   ],
   "note": "for all reachable states; which binding a turn takes is left open (the iteration order of the hash table is arbitrary in the model), so that every binding is tried is not claimed"
  },
  {
   "property": "C67",
   "status": "proved",
   "theorems": [
    "Dern.Props.c67_nearest_unique",
    "Dern.Props.c67_nearest_exact",
    "Dern.Props.c67_copy_at",
    "Dern.Props.c67_copy_at_map"
   ],
   "note": "for all reachable states; there is no result (the program stops) for a queue, for an index outside of a list, for a second index before the first one, and when a collection happens while the new vector is filled. For hash maps the keys must be data that can be keys (as in C50) and places are counted from 0"
  },
  {
   "property": "C68",
   "status": "partial",
   "theorems": [
    "Dern.Props.c68_encode",
    "Dern.Props.c68_encode_lines",
    "Dern.Props.c68_encode_full_lines",
    "Dern.Props.c68_decode",
    "Dern.Props.c68_round_trip",
    "Dern.Props.c68_decode_exact",
    "Dern.Props.c68_decode_bad",
    "Dern.Props.c68_decode_count",
    "Dern.Props.c68_empty_not_decoded",
    "Dern.Props.c68_measuring_fails",
    "Dern.Props.c68_long_line",
    "Dern.Props.c68_misplaced_padding",
    "Dern.Props.c68_decode_crash"
   ],
   "note": "Proved: encoding with every line length (exact lines if there is no padding), the round trip of every non-empty sequence of octets through every line length and any additional whitespace, exactness of decoding for texts without paddings, null for bad characters and wrong counts. The code falsifies the rest: the empty text is not decoded, a line can be longer than asked for (c68_long_line), paddings in the middle are accepted (c68_misplaced_padding), and `CS==` makes decoding dereference a null pointer (c68_decode_crash)."
  },
  {
   "property": "C69",
   "status": "partial",
   "theorems": [
    "Dern.Props.c69_dialogue_partial",
    "Dern.Props.c69_in_order",
    "Dern.Props.c69_no_token",
    "Dern.Props.c69_blank_line",
    "Dern.Props.c69_unclosed"
   ],
   "note": "Every line of the session is covered, from every state, with the octets written. Missing: what follows once a program has changed the constants nil, true or false. The full claim is false of the code for blank lines, comment lines and unfinished strings: str is used uninitialised (c69_no_token, c69_blank_line), and an unclosed parenthesis is not continued on the next line (c69_unclosed)."
  },
  {
   "property": "C70",
   "status": "partial",
   "theorems": [
    "Dern.Props.c70_options",
    "Dern.Props.c70_others",
    "Dern.Props.c70_command_partial"
   ],
   "note": "Options, order of evaluation, failures, exit status. Missing: what follows once a program has changed the constants nil, true or false (inside a string's, the file's or the session's forms); the position in messages about the file."
  },
  {
   "property": "C71",
   "status": "proved",
   "theorems": [
    "Dern.Props.c71_contents",
    "Dern.Props.c71_append_only",
    "Dern.Props.c71_closed",
    "Dern.Props.c71_distance",
    "Dern.Props.c71_read",
    "Dern.Props.c71_seek",
    "Dern.Props.c71_write",
    "Dern.Props.c71_progress",
    "Dern.Props.c71_reads",
    "Dern.Props.c71_one_port",
    "Dern.Props.c71_length",
    "Dern.Props.c71_open",
    "Dern.Props.c71_write_read_undefined",
    "Dern.Props.c71_copy_fails"
   ],
   "note": "Model of octaspire_dern_port.c over a trusted description of C streams (Spec/Stdio.lean) with arbitrary failures and buffering. c71_contents, c71_append_only, c71_one_port: files; c71_read, c71_reads, c71_seek, c71_distance, c71_write, c71_open, c71_length: answers and positions; c71_closed: refusals; c71_progress: no abort without failures unless input and output follow each other directly; c71_write_read_undefined and c71_copy_fails: what the code gets wrong. Other processes changing the files are outside the model; the builtins (C65) are proved for arbitrary answers of the ports."
  },
  {
   "property": "C72",
   "status": "proved",
   "theorems": [
    "Dern.Props.c72_formatted",
    "Dern.Props.c72_whole",
    "Dern.Props.c72_concatenated",
    "Dern.Props.c72_unformatted",
    "Dern.Props.c72_status"
   ],
   "note": "vsnprintf is described by Spec/Snprintf.lean (C11 and older libraries); the allocator's answers to realloc are arbitrary, first allocations succeed. c72_formatted (any octets), c72_whole (enough memory), c72_concatenated (after any history of C41), c72_unformatted and c72_status (arguments that cannot be formatted: null, never the documented status)."
  },
  {
   "property": "C73",
   "status": "proved",
   "theorems": [
    "Dern.Props.c73_given",
    "Dern.Props.c73_refused",
    "Dern.Props.c73_outside",
    "Dern.Props.c73_only",
    "Dern.Props.c73_of_type",
    "Dern.Props.c73_evaluated",
    "Dern.Props.c73_payload_unique",
    "Dern.Props.c73_c_data",
    "Dern.Props.c73_copied",
    "Dern.Props.c73_never_equal_itself",
    "Dern.Props.c73_compared",
    "Dern.Props.c73_vector_unchecked"
   ],
   "note": "For every state and request: given exactly if fitting, otherwise a new unpushed error; index outside aborts. C data: isolation by plugin and type names, copies, comparison; negative results as theorems (never equal to itself, comparison of different structures without comparator undefined). c73_evaluated: the variants that evaluate the element first; c73_vector_unchecked: the one for vectors checks the element, not its value."
  },
  {
   "property": "C74",
   "status": "proved",
   "theorems": [
    "Dern.Props.c74_whole_or_nothing",
    "Dern.Props.c74_found",
    "Dern.Props.c74_empty_is_missing",
    "Dern.Props.c74_input",
    "Dern.Props.c74_input_text"
   ],
   "note": "For every host state and every choice of the C library, total. Negative results as theorems (empty is missing; truncation at ill-formed octets). Allocations inside the input's string not modelled; MSVC's fopen_s not modelled."
  },
  {
   "property": "C75",
   "status": "partial",
   "theorems": [
    "Dern.Props.c75_requests",
    "Dern.Props.c75_first_requests_partial",
    "Dern.Props.c75_later_bits_ignored",
    "Dern.Props.c75_reads",
    "Dern.Props.c75_reads_start"
   ],
   "note": "General behaviour for every history; mask semantics for the first eight requests only: the code uses bitIndex % 8, so the rest is false (c75_later_bits_ignored)."
  },
  {
   "property": "C76",
   "status": "proved",
   "theorems": [
    "Dern.Props.c76_find"
   ],
   "note": "strings, symbols and vectors of data; with a hash map every element is what `find` with one key gives (C50), which is not repeated here; a key that is an empty symbol or character aborts, as with one key (C47)"
  },
  {
   "property": "C77",
   "status": "proved",
   "theorems": [
    "Dern.Props.c77_registry",
    "Dern.Props.c77_utf8",
    "Dern.Props.c77_library_stays",
    "Dern.Props.c77_malformed_is_cut"
   ],
   "note": "Every history of the nine calls answers as the lists of what was registered do; a found library stays found; UTF-8 comes back with the same octets; c77_malformed_is_cut shows what becomes of other C strings. C strings with encoded surrogates are not covered; allocation does not fail."
  },
  {
   "property": "C78",
   "status": "proved",
   "theorems": [
    "Dern.Props.c78_symbol",
    "Dern.Props.c78_suggestions",
    "Dern.Props.c78_suggested_twice"
   ],
   "note": "For every chain of environments built by bindings; the message is given completely. c78_suggested_twice shows that a name bound in two environments is suggested twice. Names are shorter than 2^31 characters (the distances are int in the code); %s is taken to print a text up to its first NUL."
  },
  {
   "property": "C79",
   "status": "proved",
   "theorems": [
    "Dern.Props.c79_collection",
    "Dern.Props.c79_release",
    "Dern.Props.c79_once"
   ],
   "note": "For every state reachable by a host program with a safe library, with the vectors all and stack as in the code. Payloads are released with their value. No binary plugins."
  },
  {
   "property": "C80",
   "status": "proved",
   "theorems": [
    "Dern.Props.c80_sorter",
    "Dern.Props.c80_shown",
    "Dern.Props.c80_determined",
    "Dern.Props.c80_aligned",
    "Dern.Props.c80_misaligned"
   ],
   "note": "For names whose characters can be encoded and are not NUL. c80_misaligned: alignment fails for non-ASCII names (padding counts octets). The text of a value is a parameter."
  },
  {
   "property": "C81",
   "status": "proved",
   "theorems": [
    "Dern.Props.c81_equal",
    "Dern.Props.c81_equivalence",
    "Dern.Props.c81_identified",
    "Dern.Props.c81_equal_iff_text",
    "Dern.Props.c81_nul"
   ],
   "note": "For texts without NUL and characters of one character (c81_nul: with a NUL they are confused). Order and text of reals are parameters."
  }
 ]
}