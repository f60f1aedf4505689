{"id": "C01", "title": "UTF-8 encode/decode round trip", "statement": "Encoding any Unicode scalar value gives 1 to 4 octets, and decoding these octets (followed by anything) gives the same scalar value and consumes exactly those octets; surrogates and numbers above U+10FFFF are refused by the encoder.", "quantifier": "every 32-bit character number and every trailing octet sequence", "why_tests_cant": "1.1 million scalar values times arbitrary trailing text; tests sample a few characters per range", "anchors": ["release/octaspire-dern-amalgamated.c:octaspire_utf8_encode_character", "release/octaspire-dern-amalgamated.c:octaspire_utf8_decode_character"]}
{"id": "C02", "title": "UTF-8 decoding is canonical", "statement": "If decoding succeeds with a scalar value, the octets consumed are exactly the canonical encoding of that value: no overlong form is ever accepted, and no octet outside the given length is read.", "quantifier": "every octet buffer and length", "why_tests_cant": "all 2^32 prefixes of length four cannot be enumerated in a unit test", "anchors": ["release/octaspire-dern-amalgamated.c:octaspire_utf8_decode_character", "release/octaspire-dern-amalgamated.c:octaspire_utf8_private_decode_helper"]}
{"id": "C03", "title": "Source positions are exact", "statement": "After reading any number of characters from an input, the reported character index, line and column are those of the next unread character (line = 1 + newlines before it, column = 1 + characters since the last newline).", "quantifier": "every text and every number of characters read", "why_tests_cant": "unbounded texts and read prefixes", "anchors": ["release/octaspire-dern-amalgamated.c:octaspire_input_pop_next_ucs_character", "release/octaspire-dern-amalgamated.c:octaspire_input_get_line_number", "release/octaspire-dern-amalgamated.c:octaspire_input_get_column_number"]}
{"id": "C04", "title": "Tokenising always makes progress", "statement": "Asking for the next token never moves backwards in the input, and every non-error token consumes at least one character; hence every input is tokenised into at most as many tokens as it has characters and the tokenizer cannot loop forever.", "quantifier": "every input text and position", "why_tests_cant": "termination on all inputs is not testable", "anchors": ["dev/src/octaspire_dern_lexer.c:octaspire_dern_lexer_pop_next_token"]}
{"id": "C05", "title": "Integer literals denote their value", "statement": "Reading {B+ds} or {B-ds} (B one of X, D, O, B; ds digits of that base with optional whitespace in between) gives the integer token whose value is the signed positional value of ds, for every value representable in the language's 32-bit integers.", "quantifier": "every base, every digit string with value in range, every surrounding text", "why_tests_cant": "2^32 values in four bases with arbitrary spacing", "anchors": ["dev/src/octaspire_dern_lexer.c:octaspire_dern_lexer_private_pop_integer_or_real_number"]}
{"id": "C06", "title": "Printed integers read back", "statement": "Reading the readable printed form of an integer gives the same integer.", "quantifier": "every 32-bit integer", "why_tests_cant": "2^32 values; the boundary value is exactly where it fails", "anchors": ["dev/src/octaspire_dern_value.c:octaspire_dern_private_value_to_string", "dev/src/octaspire_dern_lexer.c:octaspire_dern_lexer_private_pop_integer_or_real_number"]}
{"id": "C07", "title": "Printed strings read back", "statement": "Reading the readable printed form of a string gives the same string.", "quantifier": "every string", "why_tests_cant": "unbounded strings; only particular characters break it", "anchors": ["dev/src/octaspire_dern_value.c:octaspire_dern_private_value_to_string", "dev/src/octaspire_dern_lexer.c:octaspire_dern_lexer_private_pop_string"]}
{"id": "C08", "title": "Printed characters read back", "statement": "Reading the readable printed form of a character value gives the same character.", "quantifier": "every character", "why_tests_cant": "1.1 million characters", "anchors": ["dev/src/octaspire_dern_value.c:octaspire_dern_private_value_to_string", "dev/src/octaspire_dern_lexer.c:octaspire_dern_lexer_private_pop_character"]}
{"id": "C09", "title": "Whitespace and comments are insignificant between tokens", "statement": "Inserting any whitespace, any ;-comment ended by a newline, or any closed #! !# comment in front of a token does not change the kind and value of the token read.", "quantifier": "every text and every inserted whitespace/comment", "why_tests_cant": "unbounded comments and texts", "anchors": ["dev/src/octaspire_dern_lexer.c:octaspire_dern_lexer_pop_next_token", "dev/src/octaspire_dern_lexer.c:octaspire_dern_lexer_private_pop_multiline_comment", "dev/src/octaspire_dern_lexer.c:octaspire_dern_lexer_private_pop_rest_of_line"]}
{"id": "C10", "title": "Reader inverts the printer on data", "statement": "For every tree of vectors over atoms whose own printed form reads back, parsing the printed form of the tree gives a structurally equal tree and consumes all of the printed text.", "quantifier": "every finite tree of values, any depth and width", "why_tests_cant": "infinitely many trees", "anchors": ["dev/src/octaspire_dern_vm.c:octaspire_dern_vm_parse_token", "dev/src/octaspire_dern_value.c:octaspire_dern_private_value_to_string"]}
{"id": "C11", "title": "Truncated lists are rejected", "statement": "If the input ends before the right parenthesis balancing a left parenthesis, the parser reports an error; it never returns a list value for unbalanced text.", "quantifier": "every input text", "why_tests_cant": "all unbalanced texts", "anchors": ["dev/src/octaspire_dern_vm.c:octaspire_dern_vm_parse_token"]}
{"id": "C12", "title": "Quote sugar", "statement": "Parsing 'x gives exactly the two element vector (quote x) for the value parsed from x, and `x gives x with the symbol template pushed in front (or (template x) for a non-vector).", "quantifier": "every text following the quote character", "why_tests_cant": "unbounded nesting", "anchors": ["dev/src/octaspire_dern_vm.c:octaspire_dern_vm_parse_token"]}
{"id": "C13", "title": "Equality is an equivalence", "statement": "Value equality (==) is reflexive, symmetric and transitive.", "quantifier": "all triples of values", "why_tests_cant": "triples of unbounded values", "anchors": ["dev/src/octaspire_dern_value.c:octaspire_dern_value_is_equal", "dev/src/octaspire_dern_value.c:octaspire_dern_value_compare"]}
{"id": "C14", "title": "Comparison is a consistent order", "statement": "Value comparison (<, >, <=, >=) is antisymmetric and transitive, agrees with numeric order on integers, and a<b, a==b, a>b are mutually exclusive and exhaustive.", "quantifier": "all triples of values", "why_tests_cant": "triples of unbounded values; integer overflow at the extremes", "anchors": ["dev/src/octaspire_dern_value.c:octaspire_dern_value_compare", "dev/src/octaspire_dern_stdlib.c:octaspire_dern_vm_special_less_than"]}
{"id": "C15", "title": "Equal keys hash equally", "statement": "Two values that are equal have the same hash, so that a hash map lookup finds an entry stored under an equal key.", "quantifier": "all pairs of values", "why_tests_cant": "all pairs", "anchors": ["dev/src/octaspire_dern_value.c:octaspire_dern_value_get_hash", "dev/src/octaspire_dern_value.c:octaspire_dern_value_is_equal"]}
{"id": "C16", "title": "Copies are equal and independent", "statement": "Copying a value gives a value equal to the original made only of freshly allocated values, so later mutation of one is never visible through the other; the original is not changed by copying.", "quantifier": "every acyclic value graph and heap", "why_tests_cant": "unbounded structures and later mutations", "anchors": ["dev/src/octaspire_dern_vm.c:octaspire_dern_vm_create_new_value_copy"]}
{"id": "C17", "title": "Hash map behaves like a finite map", "statement": "After any sequence of put, remove and clear operations (including those that trigger growing and rehashing), looking up a key gives the value last put under an equal key and not removed since, the element count is the number of distinct keys, and iteration visits each entry exactly once.", "quantifier": "every operation sequence, every hash function", "why_tests_cant": "unbounded operation sequences and collision patterns", "anchors": ["release/octaspire-dern-amalgamated.c:octaspire_map_put", "release/octaspire-dern-amalgamated.c:octaspire_map_get", "release/octaspire-dern-amalgamated.c:octaspire_map_remove", "release/octaspire-dern-amalgamated.c:octaspire_map_private_rehash"]}
{"id": "C18", "title": "Vector behaves like a sequence", "statement": "After any sequence of push, insert, replace, remove and pop operations (with growth and compaction), the vector's elements are those of the plain sequence; index i addresses element i, negative index -i addresses the i-th element from the back, and an invalid index is refused without any change.", "quantifier": "every operation sequence and index", "why_tests_cant": "unbounded operation sequences", "anchors": ["release/octaspire-dern-amalgamated.c:octaspire_vector_push_back_element", "release/octaspire-dern-amalgamated.c:octaspire_vector_insert_element_before_the_element_at", "release/octaspire-dern-amalgamated.c:octaspire_vector_remove_element_at", "release/octaspire-dern-amalgamated.c:octaspire_vector_get_element_at"]}
{"id": "C19", "title": "Queues are FIFO and bounded queues drop the oldest", "statement": "After any sequence of pushes and pops the queue holds exactly the not yet popped pushes in push order; a queue with a maximum length never holds more than that many elements and keeps the most recent ones.", "quantifier": "every operation sequence", "why_tests_cant": "unbounded operation sequences", "anchors": ["release/octaspire-dern-amalgamated.c:octaspire_queue_push", "release/octaspire-dern-amalgamated.c:octaspire_queue_pop", "release/octaspire-dern-amalgamated.c:octaspire_queue_new_with_max_length"]}
{"id": "C20", "title": "Lists are double ended sequences", "statement": "After any sequence of pushes and pops at both ends the list, traversed forwards or backwards, is the plain sequence, and the i-th element from either end is found at index i or -i.", "quantifier": "every operation sequence", "why_tests_cant": "unbounded operation sequences", "anchors": ["release/octaspire-dern-amalgamated.c:octaspire_list_push_back", "release/octaspire-dern-amalgamated.c:octaspire_list_push_front", "release/octaspire-dern-amalgamated.c:octaspire_list_pop_back", "release/octaspire-dern-amalgamated.c:octaspire_list_get_at"]}
{"id": "C21", "title": "Semantic version precedence is a total order", "statement": "Comparing semantic versions is reflexive, antisymmetric (up to build metadata) and transitive, and follows the SemVer precedence rules (major, minor, patch numerically, then pre-release identifiers).", "quantifier": "all triples of versions", "why_tests_cant": "triples of unbounded versions", "anchors": ["release/octaspire-dern-amalgamated.c:octaspire_semver_compare"]}
{"id": "C22", "title": "Garbage collection keeps exactly the reachable values", "statement": "A garbage collection releases no value that is reachable from the VM's roots, releases every value that is not, and leaves every kept value unchanged and unmarked.", "quantifier": "every heap graph including cycles, every root set", "why_tests_cant": "unbounded graphs and timing", "anchors": ["dev/src/octaspire_dern_vm.c:octaspire_dern_vm_gc", "dev/src/octaspire_dern_vm.c:octaspire_dern_vm_private_sweep", "dev/src/octaspire_dern_value.c:octaspire_dern_value_mark", "dev/src/octaspire_dern_environment.c:octaspire_dern_environment_mark"]}
{"id": "C23", "title": "Unique ids are never reused", "statement": "In any VM history, including garbage collections, two different values never have the same unique id, so === holds only for the same object.", "quantifier": "every allocation/collection history", "why_tests_cant": "unbounded histories", "anchors": ["dev/src/octaspire_dern_vm.c:octaspire_dern_vm_private_create_new_value_struct", "dev/src/octaspire_dern_stdlib.c:octaspire_dern_vm_special_equals_equals_equals"]}
{"id": "C24", "title": "Evaluation leaves the VM stack balanced", "statement": "Whatever program is evaluated, when evaluation returns (with a value or an error) the VM's protection stack is exactly as it was before, and the VM never aborts because of an unbalanced stack.", "quantifier": "every program, environment and VM state", "why_tests_cant": "all programs", "anchors": ["dev/src/octaspire_dern_vm.c:octaspire_dern_vm_eval", "dev/src/octaspire_dern_vm.c:octaspire_dern_vm_pop_value", "dev/src/octaspire_dern_stdlib.c:octaspire_dern_vm_special_if"]}
{"id": "C25", "title": "Garbage collection timing is invisible", "statement": "Whenever garbage collections happen during an evaluation, the evaluation never touches a released value and its result and effects are the same as without any collection.", "quantifier": "every program and every schedule of collections", "why_tests_cant": "the schedule depends on the allocation counter; tests see one schedule", "anchors": ["dev/src/octaspire_dern_vm.c:octaspire_dern_vm_private_create_new_value_struct", "dev/src/octaspire_dern_vm.c:octaspire_dern_vm_set_gc_trigger_limit"]}
{"id": "C26", "title": "Lexical scoping", "statement": "A symbol evaluates to the value bound in the innermost enclosing environment that binds it; a function body is evaluated in a fresh environment enclosed by the function's definition environment, never by the caller's; binding a formal never changes the caller's or the definition environment's bindings.", "quantifier": "every environment chain, function and call", "why_tests_cant": "all environments and call histories", "anchors": ["dev/src/octaspire_dern_environment.c:octaspire_dern_environment_get", "dev/src/octaspire_dern_environment.c:octaspire_dern_environment_set", "dev/src/octaspire_dern_vm.c:octaspire_dern_vm_private_eval_impl"]}
{"id": "C27", "title": "Argument binding", "statement": "Calling a function without varargs succeeds in binding iff exactly as many arguments as formals are given, and binds the i-th formal to the i-th argument; with (… rest ...) formals it needs at least the fixed ones and binds rest to the vector of the remaining arguments.", "quantifier": "every formals/arguments pair", "why_tests_cant": "all lengths", "anchors": ["dev/src/octaspire_dern_environment.c:octaspire_dern_environment_extend"]}
{"id": "C28", "title": "Arguments are evaluated once, left to right, stopping at the first error", "statement": "Calling a builtin or function evaluates every argument exactly once in order; if one evaluates to an error, no later argument is evaluated, the callee is not run and the error is the result.", "quantifier": "every call form", "why_tests_cant": "all programs", "anchors": ["dev/src/octaspire_dern_vm.c:octaspire_dern_vm_private_eval_impl"]}
{"id": "C29", "title": "Conditionals evaluate exactly one branch", "statement": "(if c a b) and select evaluate the test(s) in order until decided and then only the selected branch; the others have no effect.", "quantifier": "all tests, branches and states", "why_tests_cant": "all programs", "anchors": ["dev/src/octaspire_dern_stdlib.c:octaspire_dern_vm_special_if", "dev/src/octaspire_dern_stdlib.c:octaspire_dern_vm_special_select"]}
{"id": "C30", "title": "and/or short-circuit", "statement": "(and …) evaluates arguments left to right and stops right after the first false; (or …) stops right after the first true; nothing after it is evaluated.", "quantifier": "all argument lists and states", "why_tests_cant": "all programs", "anchors": ["dev/src/octaspire_dern_stdlib.c:octaspire_dern_vm_special_and", "dev/src/octaspire_dern_stdlib.c:octaspire_dern_vm_special_or"]}
{"id": "C31", "title": "while counts its iterations", "statement": "(while test body…) evaluates test, then all body forms in order, repeatedly; it stops at the first false test and returns the number of completed iterations.", "quantifier": "all tests, bodies and states", "why_tests_cant": "unbounded loops", "anchors": ["dev/src/octaspire_dern_stdlib.c:octaspire_dern_vm_special_while"]}
{"id": "C32", "title": "return leaves exactly the innermost function", "statement": "(return x) ends the innermost active function call, whose value is x; no later form of that body is evaluated and callers continue normally; it has no effect on later, unrelated calls.", "quantifier": "all programs and histories", "why_tests_cant": "histories of calls", "anchors": ["dev/src/octaspire_dern_stdlib.c:octaspire_dern_vm_builtin_return", "dev/src/octaspire_dern_vm.c:octaspire_dern_vm_private_eval_impl"]}
{"id": "C33", "title": "Nothing is evaluated after exit", "statement": "After (exit …) every further evaluation returns nil at once without looking at the form or changing any value.", "quantifier": "all programs", "why_tests_cant": "all programs", "anchors": ["dev/src/octaspire_dern_stdlib.c:octaspire_dern_vm_builtin_exit", "dev/src/octaspire_dern_vm.c:octaspire_dern_vm_private_eval_impl"]}
{"id": "C34", "title": "Integer arithmetic is exact", "statement": "+, -, * and mod on integers give the mathematically exact result whenever it is representable as a 32-bit integer, for any number of arguments; division by zero is an error, never a crash.", "quantifier": "all argument lists", "why_tests_cant": "all argument lists", "anchors": ["dev/src/octaspire_dern_stdlib.c:octaspire_dern_vm_builtin_private_plus_numerical", "dev/src/octaspire_dern_stdlib.c:octaspire_dern_vm_builtin_minus", "dev/src/octaspire_dern_stdlib.c:octaspire_dern_vm_builtin_times", "dev/src/octaspire_dern_stdlib.c:octaspire_dern_vm_builtin_slash", "dev/src/octaspire_dern_stdlib.c:octaspire_dern_vm_builtin_mod"]}
{"id": "C35", "title": "define binds in the current environment, = updates the visible binding", "statement": "After (define n as v doc) the name evaluates to the value of v (an atom: a new copy of it) in the same environment, every other visible name means what it meant before, and a call that is refused changes nothing; (= n v), when it returns, gives the value of n the contents of the value of v - an atom the same payload, a container the same elements, atoms among them copied - and changes nothing else.", "quantifier": "all names, values, environments", "why_tests_cant": "all states", "anchors": ["dev/src/octaspire_dern_stdlib.c:octaspire_dern_vm_special_define", "dev/src/octaspire_dern_stdlib.c:octaspire_dern_vm_builtin_equals"]}
{"id": "C36", "title": "Top level forms run in order until the first error", "statement": "Evaluating a source text evaluates its forms in order, each completely before the next, stops at the first error and returns the result of the last form evaluated.", "quantifier": "all source texts", "why_tests_cant": "all source texts", "anchors": ["dev/src/octaspire_dern_vm.c:octaspire_dern_vm_read_from_octaspire_input_and_eval_in_global_environment"]}
{"id": "C37", "title": "Strings are ordered by code points", "statement": "Comparing two strings gives the dictionary order of their code points: it is a total order in which only identical strings are equal.", "quantifier": "all pairs and triples of strings", "why_tests_cant": "UTF-8 lengths, prefixes and all code points interact", "anchors": ["release/octaspire-dern-amalgamated.c:octaspire_string_compare", "release/octaspire-dern-amalgamated.c:octaspire_string_is_equal"]}
{"id": "C38", "title": "Version arithmetic", "statement": "Adding an amount (one non-zero number) to a semantic version raises that number, resets the lower ones, keeps the rest and strictly raises precedence; subtracting takes it away or is refused with the version unchanged; a version with several non-zero numbers is refused as an amount.", "quantifier": "all versions and amounts", "why_tests_cant": "all numbers", "anchors": ["release/octaspire-dern-amalgamated.c:octaspire_semver_add_or_subtract"]}
{"id": "C39", "title": "do evaluates its forms in order", "statement": "(do x…) evaluates its forms one after the other, left to right, each completely before the next, and returns the value of the last one; the first error or return ends it and nothing after it is evaluated.", "quantifier": "all forms and states", "why_tests_cant": "all programs", "anchors": ["dev/src/octaspire_dern_stdlib.c:octaspire_dern_vm_special_do"]}
{"id": "C40", "title": "for visits every element once, in order", "statement": "(for x in c body...) evaluates c once, then for every step-th element of the string, vector, list, queue or hash map c, in order, binds x to it in an environment of its own and evaluates all forms of the body; (for x from a to b body...) does so for the integers from a up or down to b. The result is the number of completed turns; an error or a return ends the loop at once with that value.", "quantifier": "all containers, ranges, step sizes, bodies and states", "why_tests_cant": "unbounded containers and bodies that change them", "anchors": ["dev/src/octaspire_dern_stdlib.c:octaspire_dern_vm_special_for"]}
{"id": "C41", "title": "Strings behave like texts", "statement": "After any history of pushes, pops, removals, insertions, overwritings, concatenations, copies and clears on any number of strings (no string being combined with itself), every string has the characters of the plain text, every answer (refusal, count, length, character, equality) is that of plain texts, and a C string handed out is the UTF-8 encoding of the present text however the octet cache was filled before.", "quantifier": "every family of strings and every history of operations, every way the blocks grow", "why_tests_cant": "unbounded histories; the octet cache makes old operations matter", "anchors": ["release/octaspire-dern-amalgamated.c:octaspire_string_push_back_ucs_character", "release/octaspire-dern-amalgamated.c:octaspire_string_insert_string_to", "release/octaspire-dern-amalgamated.c:octaspire_string_overwrite_with_string_at", "release/octaspire-dern-amalgamated.c:octaspire_string_concatenate", "release/octaspire-dern-amalgamated.c:octaspire_string_remove_characters_at", "release/octaspire-dern-amalgamated.c:octaspire_string_get_c_string"]}
{"id": "C42", "title": "Levenshtein distance", "statement": "The distance of two strings is the least number of single character insertions, deletions and replacements that turn one into the other; hence it is zero only for equal strings, symmetric and satisfies the triangle inequality.", "quantifier": "all pairs and triples of strings", "why_tests_cant": "minimality ranges over all edit sequences", "anchors": ["release/octaspire-dern-amalgamated.c:octaspire_string_levenshtein_distance", "dev/src/octaspire_dern_stdlib.c:octaspire_dern_vm_builtin_distance"]}
{"id": "C43", "title": "Permutation iterator visits every arrangement once", "statement": "Stepping the permutation iterator of a vector goes through every arrangement of its elements exactly once and then reports the end; it only ever rearranges the elements.", "quantifier": "vectors of every length", "why_tests_cant": "n! arrangements for every n", "anchors": ["release/octaspire-dern-amalgamated.c:octaspire_vector_permutation_iterator_next", "release/octaspire-dern-amalgamated.c:octaspire_vector_permutation_iterator_next"]}
{"id": "C44", "title": "Searching, removing and splitting strings", "statement": "Searching finds the first (all) occurrence(s) and reports failure only if there is none; starts-with and ends-with are exact; removing all occurrences ends, leaves none and counts them; splitting gives the non-empty pieces between the delimiters in order.", "quantifier": "all pairs of strings and start indices", "why_tests_cant": "all pairs of strings, overlapping occurrences", "anchors": ["release/octaspire-dern-amalgamated.c:octaspire_string_find_first_substring", "release/octaspire-dern-amalgamated.c:octaspire_string_remove_all_substrings", "release/octaspire-dern-amalgamated.c:octaspire_string_starts_with", "release/octaspire-dern-amalgamated.c:octaspire_string_ends_with", "release/octaspire-dern-amalgamated.c:octaspire_string_find_char", "release/octaspire-dern-amalgamated.c:octaspire_string_find_string", "release/octaspire-dern-amalgamated.c:octaspire_string_split"]}
{"id": "C45", "title": "Type predicates", "statement": "Each type predicate (integer?, real?, number?, nil?, boolean?, character?, string?, symbol?, vector?, hash-map?) gives a new boolean that is true exactly if its argument's value has that type, and changes nothing; with another number of arguments it is an error. Integers and reals are the numbers; no value is of two of the other types.", "quantifier": "every machine state reached, every call by name, every value", "why_tests_cant": "all values and states", "anchors": ["dev/src/octaspire_dern_stdlib.c:octaspire_dern_vm_builtin_number_question_mark", "dev/src/octaspire_dern_stdlib.c:octaspire_dern_vm_builtin_vector_question_mark", "dev/src/octaspire_dern_stdlib.c:octaspire_dern_vm_builtin_nil_question_mark"]}
{"id": "C46", "title": "Maximum and minimum", "statement": "max and min of at least two values give the very value, among the arguments, that is greatest (least) in the order of < and >, the first one among equals; with fewer arguments they are errors.", "quantifier": "every machine state reached, every call by name, every list of values", "why_tests_cant": "all lists of values; extremality quantifies over all arguments", "anchors": ["dev/src/octaspire_dern_stdlib.c:octaspire_dern_vm_builtin_max", "dev/src/octaspire_dern_stdlib.c:octaspire_dern_vm_builtin_min", "dev/src/octaspire_dern_value.c:octaspire_dern_value_compare"]}
{"id": "C47", "title": "Queries of texts", "statement": "(starts-with? s t) gives true exactly if t is a prefix of s. (distance s t) of two strings or symbols gives the least number of insertions, deletions and replacements of characters turning one text into the other. (find s t), with one text to look for, gives a new vector of the positions at which it occurs, in ascending order. (split s d), d a character, gives a new vector of new strings, the nonempty pieces of s between the occurrences of d. None of them changes any existing value. Of values that are no strings, starts-with? gives false; the distance of two numbers is a real; other arguments of distance, find and split are errors.", "quantifier": "every machine state reached, every call by name, all texts", "why_tests_cant": "all texts and states; the pieces and distances are universally quantified over texts", "anchors": ["dev/src/octaspire_dern_stdlib.c:octaspire_dern_vm_builtin_starts_with_question_mark", "dev/src/octaspire_dern_stdlib.c:octaspire_dern_vm_builtin_distance", "dev/src/octaspire_dern_stdlib.c:octaspire_dern_vm_builtin_find", "dev/src/octaspire_dern_stdlib.c:octaspire_dern_vm_builtin_split", "dev/src/octaspire_dern_vm.c:octaspire_dern_vm_find_from_value"]}
{"id": "C48", "title": "Containers in place", "statement": "pop-back and pop-front remove exactly the last (first) element of a vector or list (pop-back: the oldest of a queue; the last character of a text, the last part of a version) and leave an empty one as it is; += appends to a vector the values themselves, in order, and pushes to a list or queue a new copy of each atom and any other value itself, a queue with a maximal length keeping its newest elements; -== removes from a vector all occurrences of the very values given and keeps the others in order; list, queue and queue-with-max-length give new containers of their arguments. No other value changes.", "quantifier": "every machine state reached, every call by name, all containers and arguments", "why_tests_cant": "all container sizes, aliasing between container and arguments, all states", "anchors": ["dev/src/octaspire_dern_stdlib.c:octaspire_dern_vm_builtin_pop_back", "dev/src/octaspire_dern_stdlib.c:octaspire_dern_vm_builtin_pop_front", "dev/src/octaspire_dern_stdlib.c:octaspire_dern_vm_builtin_plus_equals", "dev/src/octaspire_dern_stdlib.c:octaspire_dern_vm_builtin_minus_equals_equals", "dev/src/octaspire_dern_stdlib.c:octaspire_dern_vm_builtin_list", "dev/src/octaspire_dern_stdlib.c:octaspire_dern_vm_builtin_queue", "dev/src/octaspire_dern_stdlib.c:octaspire_dern_vm_builtin_queue_with_max_length", "dev/src/octaspire_dern_value.c:octaspire_dern_value_as_queue_push", "dev/src/octaspire_dern_value.c:octaspire_dern_value_as_list_push_back"]}
{"id": "C49", "title": "Elements of containers", "statement": "len gives the number of characters or elements of a value (0 for nil, 1 for other atoms, the number of formals before the dot for a function), as a number for one argument and as a vector for several; ln@ with an integer index gives the very element of a vector or list at that position, negative indices counting from the back, and an error for an index outside of a vector; find with a vector of data and a key gives the positions, in order, of all elements equal to the key; -= removes from a vector of data exactly the elements equal to one of the keys and keeps the others, the very same values, in order. Nothing else changes.", "quantifier": "every machine state reached, every call by name, all containers, keys and indices", "why_tests_cant": "all container sizes and nested data, all indices, all states", "anchors": ["dev/src/octaspire_dern_stdlib.c:octaspire_dern_vm_builtin_len", "dev/src/octaspire_dern_stdlib.c:octaspire_dern_vm_builtin_ln_at", "dev/src/octaspire_dern_stdlib.c:octaspire_dern_vm_builtin_find", "dev/src/octaspire_dern_stdlib.c:octaspire_dern_vm_builtin_minus_equals", "dev/src/octaspire_dern_value.c:octaspire_dern_value_get_length", "dev/src/octaspire_dern_value.c:octaspire_dern_value_as_vector_get_element_at", "dev/src/octaspire_dern_value.c:octaspire_dern_value_as_list_get_element_at", "dev/src/octaspire_dern_value.c:octaspire_dern_value_as_vector_remove_element", "dev/src/octaspire_dern_vm.c:octaspire_dern_vm_find_from_value"]}
{"id": "C50", "title": "Hash maps", "statement": "A hash map is a finite map from keys (nil, booleans, integers, texts) to values: hash-map makes a new one with exactly the given pairs; += adds a pair, the pairs of another hash map or the elements of a vector two by two, and -= removes exactly the given keys, a missing one being an error after the earlier ones have been removed; ln@ with a key and the symbol hash, and find, give the very value of the key, respectively an error or nil for a missing one; = sets the value of a key to a new copy of an atom or to any other value itself. Otherwise values are never copied, and no other value changes. Adding a key that is there replaces or reports it.", "quantifier": "every machine state reached, every call by name, all hash maps, keys and values", "why_tests_cant": "all sizes and orders of insertion, hash collisions and rehashing, all states", "anchors": ["dev/src/octaspire_dern_stdlib.c:octaspire_dern_vm_builtin_hash_map", "dev/src/octaspire_dern_stdlib.c:octaspire_dern_vm_builtin_equals", "dev/src/octaspire_dern_stdlib.c:octaspire_dern_vm_builtin_plus_equals", "dev/src/octaspire_dern_stdlib.c:octaspire_dern_vm_builtin_minus_equals", "dev/src/octaspire_dern_stdlib.c:octaspire_dern_vm_builtin_ln_at", "dev/src/octaspire_dern_stdlib.c:octaspire_dern_vm_builtin_find", "dev/src/octaspire_dern_value.c:octaspire_dern_value_as_hash_map_put", "dev/src/octaspire_dern_value.c:octaspire_dern_value_as_hash_map_remove", "dev/src/octaspire_dern_value.c:octaspire_dern_value_as_hash_map_add", "dev/src/octaspire_dern_value.c:octaspire_dern_value_as_hash_map_get", "release/octaspire-dern-amalgamated.c:octaspire_map_put", "release/octaspire-dern-amalgamated.c:octaspire_map_get", "release/octaspire-dern-amalgamated.c:octaspire_map_remove"]}
{"id": "C51", "title": "Printing", "statement": "to-string gives a new string: the printed forms of its arguments one after the other; string-format fills the printed forms of its arguments into the places {} of the format string, in order, and reports missing arguments; print and println write that text as UTF-8 (and a newline) and nothing else, and return true; print-readably reports and sets the mode. The printed form of nil, booleans, numbers, texts, versions, errors, functions and macros (their names), vectors, lists, queues, hash maps is the documented one, and in the mode print-readably what is printed for readable data is read back as the same data. No value changes.", "quantifier": "every machine state reached, every call by name, all data of any depth and size, all format strings", "why_tests_cant": "all data, all texts, all format strings and states", "anchors": ["dev/src/octaspire_dern_stdlib.c:octaspire_dern_vm_builtin_to_string", "dev/src/octaspire_dern_stdlib.c:octaspire_dern_vm_builtin_string_format", "dev/src/octaspire_dern_stdlib.c:octaspire_dern_vm_builtin_print", "dev/src/octaspire_dern_stdlib.c:octaspire_dern_vm_builtin_println", "dev/src/octaspire_dern_stdlib.c:octaspire_dern_vm_builtin_print_readably", "dev/src/octaspire_dern_value.c:octaspire_dern_value_to_string", "dev/src/octaspire_dern_value.c:octaspire_dern_value_print"]}
{"id": "C52", "title": "Texts are joined, stripped and overwritten exactly", "statement": "`+` with a string, character or symbol first gives a new text: the texts of its arguments one after the other (a symbol if the first one is a symbol, an error if an argument is no text that fits). `+=` on a string or symbol appends to that very value, for each argument, its text, the texts of the elements of a vector (at any depth), or the printed form of another value. `-` and `-=` take every occurrence of each argument out of the very string given first, again and again until there is none, one argument after the other; an argument that is not a string or character is an error, with the earlier ones taken out already. `(= s i c)` puts a character's text over the characters from position i on (counted from the end if i is negative), appends it if i is beyond the end, and is an error if i is before the beginning. No other value changes.", "quantifier": "for every reachable machine, every call by name of these functions and all argument values (appended texts that C strings can hold; the changed text is not appended to itself)", "why_tests_cant": "texts and values nest without bound, the arguments can be the changed value itself or share structure with it, and allocation may collect in between", "anchors": ["dev/src/octaspire_dern_stdlib.c:octaspire_dern_vm_builtin_plus", "dev/src/octaspire_dern_stdlib.c:octaspire_dern_vm_builtin_minus", "dev/src/octaspire_dern_stdlib.c:octaspire_dern_vm_builtin_plus_equals", "dev/src/octaspire_dern_stdlib.c:octaspire_dern_vm_builtin_minus_equals", "dev/src/octaspire_dern_stdlib.c:octaspire_dern_vm_builtin_equals", "dev/src/octaspire_dern_value.c:octaspire_dern_value_as_string_push_back", "dev/src/octaspire_dern_value.c:octaspire_dern_value_as_string_remove_all_substrings", "dev/src/octaspire_dern_value.c:octaspire_dern_value_set_collection"]}
{"id": "C53", "title": "Numbers and characters are changed in place exactly", "statement": "`++` and `--` change each of their arguments by one step, in order (`--` also shortens vectors, lists and strings at the end and queues at the front), give the last one back, and stop with an error at the first argument that cannot be changed, with the earlier ones changed already. `+=` and `-=` on an integer or real change that very value by each argument: integers and reals by their value, strings of digits by the number they begin with (reduced to 32 bits), vectors by their elements at any depth; other arguments are ignored. On a character, a number changes its code, `-=` with another character gives the difference of the codes, and `+=` with another character makes it a string to which the remaining arguments are appended. Without a first argument that can be changed there is an error, and an error value given first is given back. Values other than the changed ones stay as they are.", "quantifier": "all argument values and aliasing between them, all nesting depths, all states that programs can reach", "why_tests_cant": "unit tests try a few numbers; which values change, the effect of aliased arguments and of nested vectors must hold for every heap and argument list", "anchors": ["dev/src/octaspire_dern_stdlib.c:octaspire_dern_vm_builtin_plus_plus", "dev/src/octaspire_dern_stdlib.c:octaspire_dern_vm_builtin_minus_minus", "dev/src/octaspire_dern_stdlib.c:octaspire_dern_vm_builtin_plus_equals", "dev/src/octaspire_dern_stdlib.c:octaspire_dern_vm_builtin_minus_equals", "dev/src/octaspire_dern_value.c:octaspire_dern_value_as_integer_add", "dev/src/octaspire_dern_value.c:octaspire_dern_value_as_character_add", "dev/src/octaspire_dern_value.c:octaspire_dern_value_as_character_subtract"]}
{"id": "C54", "title": "template is quasi-quotation", "statement": "For every reachable machine state and every call of (template x...): items are put into the result as they are and without being evaluated, except that after the symbol , the next form is evaluated once, in the environment of the call, and its value is put in; after ,@ the value's elements are put in if it is a vector, otherwise the value itself; a symbol ,name is replaced by the value that evaluating the symbol name gives; a vector is replaced by a new vector made from its elements in the same way, at any depth. The evaluations are exactly these, from left to right; a , or ,@ without a following form contributes an error value. One single item is the result itself, several items become a new vector with the values in order, and every vector made by template is new and in the end has exactly the elements so determined, whatever the evaluated forms and the garbage collections meanwhile did.", "quantifier": "every reachable state, every number of items, every nesting, every value and form in it, every behaviour of the evaluated forms", "why_tests_cant": "templates nest arbitrarily and evaluated forms can do anything in between, including changing the very form that is being expanded; tests fix one shape", "anchors": ["dev/src/octaspire_dern_stdlib.c:octaspire_dern_vm_private_template_helper", "dev/src/octaspire_dern_stdlib.c:octaspire_dern_vm_special_template"]}
{"id": "C55", "title": "What is on the protection stack survives every collection", "statement": "A value pushed onto the machine's stack with octaspire_dern_vm_push_value is not released as long as it is on the stack: not while any form is evaluated, not while the embedding program runs any other sequence of operations that leaves this part of the stack alone, and whenever garbage is collected. The same holds for every value reachable from such a value through values that only the embedding program knows, and these values are also not changed by evaluating forms.", "quantifier": "every machine state reachable by host operations and evaluations, every form and environment, every sequence of host operations, every collection threshold", "why_tests_cant": "which values are live at a collection depends on everything evaluated in between; tests cannot try every moment at which a collection may start", "anchors": ["dev/src/octaspire_dern_vm.c:octaspire_dern_vm_push_value", "dev/src/octaspire_dern_vm.c:octaspire_dern_vm_pop_value", "dev/src/octaspire_dern_vm.c:octaspire_dern_vm_gc", "dev/src/octaspire_dern_vm.c:octaspire_dern_vm_eval_in_environment", "dev/src/octaspire_dern_value.c:octaspire_dern_value_mark"]}
{"id": "C56", "title": "generate fills new collections", "statement": "For every reachable machine state and every call of generate: (generate type of n x) gives a new vector or string. If the value of x cannot be called, it consists of n times this value; otherwise the form (x (quote result) i) is evaluated once for each i = 0, 1, ..., n-1, in this order and in the environment of the call, and each value is appended to the result. (generate 'vector mapping f on a b ...) evaluates f and then the vectors a, b, ... once and in order, and gives a new vector of the values of the calls (f a_i b_i ...) for all indices i below the largest length. With fewer than four arguments, another type, a missing keyword, a negative or non-numeric count, something not callable to map, or an argument that is no vector, the result is a new error and nothing else is evaluated or changed.", "quantifier": "every machine state, call, type, count (integers and reals), generator, function and number of vectors; every program that is evaluated for the parts, including generators that change the result while it is made", "why_tests_cant": "the generator is an arbitrary program that gets the collection that is being filled, may change it and may trigger garbage collections between any two turns; the properties hold for every count and every such program", "anchors": ["dev/src/octaspire_dern_stdlib.c:octaspire_dern_vm_special_generate", "dev/src/octaspire_dern_stdlib.c:octaspire_dern_vm_private_special_generate_helper_generate", "dev/src/octaspire_dern_stdlib.c:octaspire_dern_vm_private_special_generate_helper_map", "dev/src/octaspire_dern_value.c:octaspire_dern_value_as_collection_push_back_element"]}
{"id": "C57", "title": "Comparison operators", "statement": "For every reachable machine state and every call of ==, ===, !=, <, <=, > or >=: with fewer than two arguments the result is a new error. Otherwise the first argument is evaluated once, then the others from left to right, each value being compared with the value of the first argument right after its evaluation; the first comparison that fails ends the form, nothing after it is evaluated and the result is false (true for !=); if none fails, it is true (false for !=). == tells whether the two are equal as data, === whether they are the same value, the others whether they stand in the order of values (numbers by value, texts lexicographically by code points).", "quantifier": "every machine state, call, number of arguments and program evaluated for them, including arguments whose evaluation changes the values compared", "why_tests_cant": "short circuiting, the order of evaluation and the state in which each comparison takes place must be right for every list of arguments and every program they run", "anchors": ["dev/src/octaspire_dern_stdlib.c:octaspire_dern_vm_special_equals_equals", "dev/src/octaspire_dern_stdlib.c:octaspire_dern_vm_special_equals_equals_equals", "dev/src/octaspire_dern_stdlib.c:octaspire_dern_vm_special_exclamation_equals", "dev/src/octaspire_dern_stdlib.c:octaspire_dern_vm_special_less_than", "dev/src/octaspire_dern_stdlib.c:octaspire_dern_vm_special_greater_than", "dev/src/octaspire_dern_value.c:octaspire_dern_value_compare"]}
{"id": "C58", "title": "quote and eval", "statement": "For every reachable machine state and every call of quote or eval: (quote x) is x itself and evaluates nothing; (eval x) evaluates x and then its value, both once and in the current environment; (eval x e) does both in the environment e (given as an environment value or by a form that is evaluated first; an error value of that form is the result); (eval f e x y ...) evaluates f, e, x, y, ... in this order in the current environment and then calls the value of f in the environment e with these values, the elements of vectors being separate arguments, and gives the value of that call; a wrong number of arguments, something not callable and something that is no environment give new errors before anything else is evaluated.", "quantifier": "every machine state, call, number of arguments, and programs evaluated for them", "why_tests_cant": "which forms are evaluated, how often, in which order and in which environment must be right for every program, including arguments that run programs changing other values", "anchors": ["dev/src/octaspire_dern_stdlib.c:octaspire_dern_vm_special_quote", "dev/src/octaspire_dern_stdlib.c:octaspire_dern_vm_special_eval", "dev/src/octaspire_dern_stdlib.c:octaspire_dern_vm_private_special_eval_helper_eval", "dev/src/octaspire_dern_stdlib.c:octaspire_dern_vm_private_special_eval_helper_apply"]}
{"id": "C59", "title": "Macro calls", "statement": "Making a macro with 'macro' works like making a function with 'fn'. Calling a macro does not evaluate the arguments: the argument forms themselves are bound to the formals in a new environment enclosed by the one in which the macro was made, the body is evaluated there, and then the value of the body is evaluated once more in that same new environment. If the macro does not accept that many arguments, the result is a new error. If what comes out is a vector beginning with a macro or with a symbol that is bound to a macro where the call was made, it is expanded again as a macro call of the caller; otherwise it is the result as it is.", "quantifier": "every reachable interpreter state, every macro, every call form and environment, every number of re-expansions", "why_tests_cant": "expansion is recursive and unbounded, and the environment in which the expansion is evaluated only matters for particular combinations of names; tests sample a few macros", "anchors": ["dev/src/octaspire_dern_vm.c:octaspire_dern_vm_eval", "dev/src/octaspire_dern_vm.c:octaspire_dern_vm_private_eval_impl", "dev/src/octaspire_dern_stdlib.c:octaspire_dern_vm_special_macro"]}
{"id": "C60", "title": "Small builtin functions", "statement": "`(not b)` is a new boolean, the opposite of the boolean b, and an error for anything else; `(uid x)` is a new integer that differs for any two different values in memory; `(doc x …)` gives the very documentation strings that the values were documented with (a new nil for a value without one), a new vector of them if there are several; `(vector x …)` is a new vector with copies of the atoms and the other values themselves; `(env-new)` and `(env-new e)` give a new empty environment, enclosed by nothing or by e itself; `(env-current)` is the environment of the call itself, `(env-global)` the global environment itself; `(abort x)` never returns. With other numbers of arguments they give an error. None of them changes any value or does anything else.", "quantifier": "every reachable state, every call by name of one of these functions and every way its arguments evaluate", "why_tests_cant": "a test fixes the values, what is in memory and when the collector runs", "anchors": ["dev/src/octaspire_dern_stdlib.c:octaspire_dern_vm_builtin_not", "dev/src/octaspire_dern_stdlib.c:octaspire_dern_vm_builtin_uid", "dev/src/octaspire_dern_stdlib.c:octaspire_dern_vm_builtin_doc", "dev/src/octaspire_dern_stdlib.c:octaspire_dern_vm_builtin_vector", "dev/src/octaspire_dern_stdlib.c:octaspire_dern_vm_builtin_env_new", "dev/src/octaspire_dern_stdlib.c:octaspire_dern_vm_builtin_env_current", "dev/src/octaspire_dern_stdlib.c:octaspire_dern_vm_builtin_env_global", "dev/src/octaspire_dern_stdlib.c:octaspire_dern_vm_builtin_abort"]}
{"id": "C61", "title": "Conversions and the signatures of the functions of mathematics", "statement": "`(to-integer x)` is a new integer: the integer itself; the integral part of a finite real whose integral part is an int32 (no result otherwise: undefined behaviour in C); the code point of a character; for a string or symbol the number it begins with (white space, a sign, decimal digits; zero without digits), limited to 64 bits and then reduced to 32; an error for other values.  `(to-real x)` is a new real with exactly the value of the integer or of the code point, the same real for a real, some real for a text, an error for other values; converting an integer to a real and back gives the integer.  `(character n)` is the character with that code point (an error if negative), `(character name)` knows exactly two names.  `cos`, `sin`, `sqrt`, `pow` and so on give a new real exactly if the number of arguments suits, the arguments are numbers and, for `sqrt`, the number is not negative, and an error otherwise; nothing else changes.", "quantifier": "every argument list, every reachable machine state, every real of 64 bits, every text, every allocation and collection schedule", "why_tests_cant": "64-bit reals and texts cannot be enumerated, and the claim that nothing else changes ranges over every heap.", "anchors": ["dev/src/octaspire_dern_stdlib.c:octaspire_dern_vm_builtin_to_integer", "dev/src/octaspire_dern_stdlib.c:octaspire_dern_vm_builtin_to_real", "dev/src/octaspire_dern_stdlib.c:octaspire_dern_vm_builtin_character", "dev/src/octaspire_dern_stdlib.c:octaspire_dern_vm_builtin_sqrt", "dev/src/octaspire_dern_stdlib.c:octaspire_dern_vm_builtin_pow", "dev/src/octaspire_dern_stdlib.c:octaspire_dern_vm_builtin_cos", "dev/src/octaspire_dern_value.c:octaspire_dern_value_as_number_get_value"]}
{"id": "C62", "title": "`copy`, and `+` on vectors", "statement": "`(copy x)` of a vector is a new vector of copies of its elements, all parts of which are new; of a string or integer it is a new equal value; of other values it is an error.  `(copy x f)` asks the function `f` about each element (or character) in turn, by evaluating the form `(f element index)` in the environment of the call, and is a new vector of copies (a new string) of exactly those for which the answer was true, in the same order; it is an error as soon as an answer is not a boolean, and elements after it are not asked about; the collection is looked at again in each turn, so that it may change meanwhile.  `(+ v x ...)` with a vector `v` is a new vector of copies of the elements of `v` followed by copies of the other arguments; no argument changes.  Apart from what the function does, nothing else changes.", "quantifier": "every argument list, every collection of every length, every predicate (including those that change the collection or redefine functions), every reachable machine state and collection schedule", "why_tests_cant": "predicates are arbitrary programs, and that copies share nothing with the original ranges over every heap.", "anchors": ["dev/src/octaspire_dern_stdlib.c:octaspire_dern_vm_builtin_copy", "dev/src/octaspire_dern_stdlib.c:octaspire_dern_vm_builtin_private_plus_vector", "dev/src/octaspire_dern_vm.c:octaspire_dern_vm_create_new_value_copy"]}
{"id": "C63", "title": "Adding and subtracting versions", "statement": "`(+ v w ...)` and `(- v w ...)` with a version `v` first are a new version: `v` with the others added or subtracted one after the other; no argument changes, and an argument that is not a version is an error.  Adding a version with exactly one non-zero number raises that number modulo 2^64, sets the lower ones to zero and appends the pre-release identifiers; subtracting lowers the number and takes the identifiers away one by one.  A version with two non-zero numbers, or with a larger number than there is to subtract, changes nothing; identifiers that are missing end the subtraction of that version.  `+` and `-` go on silently after such a refusal.  `+=` does the same in place and ignores what is not a version; `-=` stops with an error at the first refusal and leaves what has been subtracted before.  The same version may occur several times, also as first and later argument if it has no identifiers.", "quantifier": "every argument list, every version and mixture of values, every reachable machine state, every aliasing of the arguments", "why_tests_cant": "the refusals, wrap-around and aliasing combine over unboundedly many arguments; tests reach a handful.", "anchors": ["dev/src/octaspire_dern_stdlib.c:octaspire_dern_vm_builtin_private_plus_semver", "dev/src/octaspire_dern_stdlib.c:octaspire_dern_vm_builtin_private_minus_semver", "dev/src/octaspire_dern_stdlib.c:octaspire_dern_vm_builtin_plus_equals", "dev/src/octaspire_dern_stdlib.c:octaspire_dern_vm_builtin_minus_equals", "dev/src/octaspire_dern_value.c:octaspire_dern_value_as_semver_add_or_subtract", "release/octaspire-dern-amalgamated.c:octaspire_semver_add_or_subtract"]}
{"id": "C64", "title": "Programs that read programs", "statement": "read-and-eval-string evaluates the forms of its string exactly as the host's reading of a text does: one after the other, in the global environment, until the first error, which is the result; otherwise the result is that of the last form. read-and-eval-path does the same with the text of a file. require gives true for a library that is loaded already, otherwise it reads the source file once and gives the file's name, or an error if reading gave an error. Arguments of the wrong type or number give an error and change nothing.", "quantifier": "every string or file text, every reachable state, every call by name", "why_tests_cant": "all programs as strings, nested arbitrarily", "anchors": ["dev/src/octaspire_dern_stdlib.c:octaspire_dern_vm_builtin_read_and_eval_string", "dev/src/octaspire_dern_stdlib.c:octaspire_dern_vm_builtin_read_and_eval_path", "dev/src/octaspire_dern_stdlib.c:octaspire_dern_vm_builtin_require", "dev/src/octaspire_dern_stdlib.c:octaspire_dern_vm_builtin_private_require_source_file", "dev/src/octaspire_dern_vm.c:octaspire_dern_vm_read_from_buffer_and_eval_in_global_environment", "dev/src/octaspire_dern_vm.c:octaspire_dern_vm_read_from_octaspire_input_and_eval_in_global_environment"]}
{"id": "C65", "title": "Ports and the host", "statement": "Whatever files contain and however the operating system answers: opening a file by a string gives a new port (io-file-open may give an error); port-supports-input?, port-supports-output?, port-flush, port-close and port-seek give a new boolean, port-dist and port-length a new 32-bit integer; (port-read p) gives an octet or an error, (port-read p n) a new vector of at most n new octets; port-write gives the number of octets that the value has in UTF-8 (for vectors the sum over the elements, at any depth) or an error, and always an error for anything but integers, characters, strings and vectors of these; host-get-command-line-arguments and host-get-environment-variables give a new vector of new strings. No value in the machine changes, and arguments of the wrong type or number are errors.", "quantifier": "every argument list, every answer of the operating system, every reachable state, vectors of every depth", "why_tests_cant": "the operating system's answers and nested vectors are unbounded", "anchors": ["dev/src/octaspire_dern_stdlib.c:octaspire_dern_vm_builtin_input_file_open", "dev/src/octaspire_dern_stdlib.c:octaspire_dern_vm_builtin_io_file_open", "dev/src/octaspire_dern_stdlib.c:octaspire_dern_vm_builtin_port_read", "dev/src/octaspire_dern_stdlib.c:octaspire_dern_vm_builtin_port_write", "dev/src/octaspire_dern_stdlib.c:octaspire_dern_vm_builtin_port_seek", "dev/src/octaspire_dern_stdlib.c:octaspire_dern_vm_builtin_port_close", "dev/src/octaspire_dern_stdlib.c:octaspire_dern_vm_builtin_host_get_command_line_arguments"]}
{"id": "C66", "title": "howto finds forms that really give the expected value", "statement": "Evaluating `(howto x1 … xk y)` gives an error for fewer than two arguments. Otherwise it goes through every order of x1 … xk exactly once; for each, it takes as many turns as the current environment has bindings, looking at one binding in each turn, and whenever the value bound is a builtin, special form or function that may be tried, it makes a new vector of this value and copies of the arguments, evaluates a copy of it in the current environment, and, unless this gives an error, evaluates a copy of y. The result is a new vector of exactly those forms for which neither evaluation gave an error and the two values were equal, in the order in which they were tried; each of them is still made of the operator and of copies of the arguments as they were when it was tried, whatever the programs evaluated since have done. Nothing else is evaluated.", "quantifier": "all reachable states, arguments, environments, garbage collector schedules and allocations", "why_tests_cant": "howto evaluates arbitrarily many forms with arbitrary effects while collections may happen at every allocation; tests check a few arithmetic examples", "anchors": ["dev/src/octaspire_dern_stdlib.c:octaspire_dern_vm_special_howto", "dev/src/octaspire_dern_stdlib.c:octaspire_dern_stdlib_private_special_howto_helper", "release/octaspire-dern-amalgamated.c:octaspire_vector_permutation_iterator_next"]}
{"id": "C67", "title": "cp@ gives new copies of the elements asked for", "statement": "`(cp@ x i)` gives, for a string or symbol, the character at i as a new character; for a vector or list a new copy, all parts of which are new, of the element at i; for an integer the bit at i (0 to 31, or counted from the end); for a version the number or identifier at i; for nil, nil. `(cp@ x i j)` on a text or vector with i different from j gives a new vector with the characters, or with copies of the elements, from i to j inclusive. `(cp@ m k 'hash)` gives a copy of the value of the hash map m at the key k and `(cp@ m i 'index)` of the i-th entry. Negative indices count from the end; real indices lose the places after the point, and indices of texts and vectors are rounded to 24 significant bits first. Everything outside, of the wrong type or with a wrong number of arguments gives an error. Nothing but the new values is created, and no existing value changes.", "quantifier": "all reachable states, values, indices, garbage collector schedules and allocations", "why_tests_cant": "indices range over all numbers and include negative, real and rounded ones; the copy must be deep for values of every depth, and the new vector is not protected from collections while it is filled", "anchors": ["dev/src/octaspire_dern_stdlib.c:octaspire_dern_vm_builtin_cp_at_sign", "dev/src/octaspire_dern_value.c:octaspire_dern_value_as_number_get_value"]}
{"id": "C68", "title": "base64 encoding is RFC 4648 and decoding is its inverse", "statement": "For every sequence of octets and every line length, what octaspire_helpers_base64_encode writes is, apart from newlines, the base64 encoding of RFC 4648 with padding; without a line length there are no newlines, with a line length a newline comes after each full line and no line is longer. Decoding the encoding of any octets gives these octets, whatever whitespace is put into it, and decoding gives null for everything that is not the base64 of some octets.", "quantifier": "all sequences of octets, all line lengths, all input texts", "why_tests_cant": "there are infinitely many inputs, with three lengths modulo 3 and arbitrary relations between line length and padding; the tests encode one text with two line lengths", "anchors": ["release/octaspire-dern-amalgamated.c:octaspire_helpers_base64_encode", "release/octaspire-dern-amalgamated.c:octaspire_helpers_base64_decode"]}
{"id": "C69", "title": "The interactive session answers form by form", "statement": "In the interactive session of dern, every complete line of the standard input is appended to the text not yet answered; if that text holds a complete form the first one is made and evaluated once in the global environment, its value is printed followed by a newline, and the next line starts afresh after the prompt '> '; a text that is not yet a complete form is continued after the prompt '| '; a malformed text is answered with the error and its position; nothing is evaluated after exit and no further line is read. Complete forms on lines of their own are evaluated and answered in the order in which they are typed.", "quantifier": "every standard input, every machine state, every sequence of forms and effects of the forms", "why_tests_cant": "the session is an unbounded history of lines and evaluations, each depending on the state left by the earlier ones; there are no tests of the program dern", "anchors": ["dev/src/octaspire_dern_repl.c:main", "release/octaspire-dern-amalgamated.c:octaspire_stdio_read_line", "dev/src/octaspire_dern_vm.c:octaspire_dern_vm_read_from_octaspire_input_and_eval_in_global_environment"]}
{"id": "C70", "title": "The command dern: options, order of evaluation and exit", "statement": "Options may be given in any number and order before the file; their strings and directories are collected in that order. The command evaluates the strings given with -e in order, then the file, then holds the session (if there is neither string nor file, or with -i), each only if nothing before has failed; the first string or file that fails is reported and ends the command with failure; otherwise the exit status is the exit code of the machine. Arguments after the file do not matter to dern. An unknown option, --help and --version end the command before anything is evaluated.", "quantifier": "every list of command line arguments, every standard input and file content, every machine state", "why_tests_cant": "all lists of arguments, all programs in strings, file and session, and the effects of one on the next; there are no tests of the program dern", "anchors": ["dev/src/octaspire_dern_repl.c:main"]}
{"id": "C71", "title": "Ports keep what is written to files", "statement": "Whatever a program does with any number of ports on files (open for input, output or both, copy, read, write, seek, flush, close, release), whenever the C library fails and whenever it moves its buffers to the files: no octet of a file is changed or lost; what a file gains is an interleaving of octets its ports have accepted, in the order of each port, all of them once the port was flushed, moved, closed or released successfully; files not opened for output stay as they are. Reads deliver the octets of the file from the port's position on without gaps; seek and distance set and tell the position; a closed or unopened port refuses everything and changes nothing. Without failures no operation aborts unless input directly follows output or output input; length stays that of the moment of opening.", "quantifier": "every history of port operations with all answers, every behaviour of the C library (failures, buffering), every file", "why_tests_cant": "the library may buffer and fail at any moment and ports interleave; tests see few schedules", "anchors": ["dev/src/octaspire_dern_port.c:octaspire_dern_port_new_input_file", "dev/src/octaspire_dern_port.c:octaspire_dern_port_new_output_file", "dev/src/octaspire_dern_port.c:octaspire_dern_port_new_io_file", "dev/src/octaspire_dern_port.c:octaspire_dern_port_new_copy", "dev/src/octaspire_dern_port.c:octaspire_dern_port_write", "dev/src/octaspire_dern_port.c:octaspire_dern_port_read", "dev/src/octaspire_dern_port.c:octaspire_dern_port_close", "dev/src/octaspire_dern_port.c:octaspire_dern_port_seek", "dev/src/octaspire_dern_port.c:octaspire_dern_port_flush", "dev/src/octaspire_dern_port.c:octaspire_dern_port_distance", "dev/src/octaspire_dern_port.c:octaspire_dern_port_release"]}
{"id": "C72", "title": "Formatted texts are complete", "statement": "Making a string from a format (or adding one to a string) gives all characters the format and its arguments stand for, up to the first NUL, whatever their number and whether vsnprintf tells the length needed or only that the buffer was too small; nothing outside of the buffer is read; the buffer is doubled and never larger than twice the text; if the allocator refuses a block, nothing more is asked for, the null pointer is returned (adding: the answer is false and the string is as before); octets that are not UTF-8 end the text with the decoding error. If the arguments cannot be formatted at all the buffer is doubled until the allocator refuses; the encoding-error status cannot be met in practice.", "quantifier": "every format result shorter than 2^31 octets, every allocator behaviour, both kinds of C libraries, every history of the string added to", "why_tests_cant": "texts of every length and every place where memory may run out", "anchors": ["release/octaspire-dern-amalgamated.c:octaspire_string_new_vformat", "release/octaspire-dern-amalgamated.c:octaspire_string_new_format", "release/octaspire-dern-amalgamated.c:octaspire_string_concatenate_format"]}
{"id": "C73", "title": "Arguments for functions written in C; C data", "statement": "A builtin or plugin that asks for argument i of a vector as a number, boolean, text, string, function, vector, environment, symbol, particular symbol, one of several texts, or C data of a plugin and type, is given exactly that element with its payload if it is what was asked for (for one of several texts with the least number of the text), and otherwise no element and a new error that is not on the stack; nothing reachable changes; an index that denotes no element ends the program. In particular a plugin never gets the payload of C data made by another plugin or with another type name. If a number or a callable is to be evaluated first, exactly that one evaluation takes place and its value is judged instead. Copied C data has the same names and payload; C data is compared by plugin, type name and then the library's comparator. What does not hold: C data is never equal to itself or its copy, and different C data of one type without a comparator is undefined to compare.", "quantifier": "every state, vector, index, request and element; all C data", "why_tests_cant": "every combination of argument kind, index (from either end) and request; plugins rely on it for memory safety", "anchors": ["dev/src/octaspire_dern_value.c:octaspire_dern_value_as_vector_get_element_at_as_number_or_unpushed_error", "dev/src/octaspire_dern_value.c:octaspire_dern_value_as_vector_get_element_at_as_c_data_or_unpushed_error", "dev/src/octaspire_dern_value.c:octaspire_dern_value_as_vector_get_element_at_as_one_of_texts_or_unpushed_error", "dev/src/octaspire_dern_value.c:octaspire_dern_value_as_vector_get_element_of_type_at", "dev/src/octaspire_dern_c_data.c:octaspire_dern_c_data_is_plugin_and_payload_type_name", "dev/src/octaspire_dern_c_data.c:octaspire_dern_c_data_is_equal", "dev/src/octaspire_dern_c_data.c:octaspire_dern_c_data_compare", "dev/src/octaspire_dern_c_data.c:octaspire_dern_c_data_new_copy"]}
{"id": "C74", "title": "Reading a whole file", "statement": "Reading a file into memory, or making an input from it, gives exactly the octets of the file (for an input: stands before the first character of the longest well-formed beginning) or nothing at all; nothing only if the file is missing, empty, or something went wrong. Wherever anything goes wrong (opening, seeking, asking for the position, memory, a short read): never a part of the file, the stream is closed, no memory but the result remains allocated, no file changes. What does not hold: an empty file is not told from a missing one; octets after the first that is not well-formed are silently dropped from an input.", "quantifier": "every file, every choice of the C library at every call, every allocator and rigging, every state of the host", "why_tests_cant": "the failures can come at every call and in every combination", "anchors": ["release/octaspire-dern-amalgamated.c:octaspire_helpers_path_to_buffer", "release/octaspire-dern-amalgamated.c:octaspire_input_new_from_path", "release/octaspire-dern-amalgamated.c:octaspire_stdio_fread", "release/octaspire-dern-amalgamated.c:octaspire_allocator_malloc"]}
{"id": "C75", "title": "Requests refused on purpose", "statement": "After an allocator is told to rig the next n requests by a bit mask, for every history of malloc, realloc and free the k-th request is refused if its bit is clear and, unless memory is short, only then; after n requests none is refused any more; the number still rigged is what is left. The same for reads of the stdio object. What does not hold: only the lowest eight bits of each word are used for the allocator, so from request 8 on the mask has no effect of its own.", "quantifier": "every mask, count and history of requests; every read", "why_tests_cant": "histories of up to 640 requests with any mask", "anchors": ["release/octaspire-dern-amalgamated.c:octaspire_allocator_malloc", "release/octaspire-dern-amalgamated.c:octaspire_allocator_realloc", "release/octaspire-dern-amalgamated.c:octaspire_allocator_set_number_and_type_of_future_allocations_to_be_rigged", "release/octaspire-dern-amalgamated.c:octaspire_allocator_set_number_and_type_of_future_allocations_to_be_rigged_when_larger_than_32", "release/octaspire-dern-amalgamated.c:octaspire_stdio_fread", "release/octaspire-dern-amalgamated.c:octaspire_stdio_set_number_and_type_of_future_reads_to_be_rigged"]}
{"id": "C76", "title": "Searching for several keys at once", "statement": "`find` with a string, symbol or vector of data and two or more keys answers with a new vector that has one element for every key, in order: a new vector of the positions of this key as integers (the low 32 bits), ascending — the positions of the equal elements of a vector, of the first code point of a character, of a string or symbol, or of the text of a number — or an error value, not an error, where a text cannot be searched for this kind of key.  An empty string is nowhere in a string.  All these values are new and no two are the same value; the answers found first are untouched by the later searches and by garbage collection in between; every other value stays as it is.", "quantifier": "every reachable state, every call of `find` with a string, symbol or vector of data and two or more keys", "why_tests_cant": "The answers are kept alive only through the vector that holds them; each search allocates and may collect garbage, so that the positions found for an early key could be released or reused for certain numbers of keys and allocations only.", "anchors": ["dev/src/octaspire_dern_stdlib.c:octaspire_dern_vm_builtin_find", "dev/src/octaspire_dern_vm.c:octaspire_dern_vm_find_from_value"]}
{"id": "C77", "title": "Libraries, arguments and environment variables of a machine", "statement": "What a host program registers with a virtual machine comes back: a library is accepted exactly if no library of this name is registered, and is found under its name, unchanged, after everything that is registered later; a name is reported as registered exactly if it is; command line arguments and environment variables are kept apart, each in the order of their addition, counted, and given by position (from the end for negative indexes, a null pointer outside) as C strings with the octets that were added, if these were UTF-8.  Nothing aborts.  Of a C string that is not UTF-8 the longest well-formed beginning is used, without any report.", "quantifier": "every history of the nine calls in any order, every C string without surrogates, every library, every hash function, every growth of vectors", "why_tests_cant": "The libraries are in a hash map that is rebuilt as it grows, the strings in vectors that are moved as they grow, and the octets of a string are computed and cached by the first question for it; only some histories can be tried.", "anchors": ["dev/src/octaspire_dern_vm.c:octaspire_dern_vm_add_library", "dev/src/octaspire_dern_vm.c:octaspire_dern_vm_has_library", "dev/src/octaspire_dern_vm.c:octaspire_dern_vm_get_library", "dev/src/octaspire_dern_vm.c:octaspire_dern_vm_add_command_line_argument", "dev/src/octaspire_dern_vm.c:octaspire_dern_vm_get_number_of_command_line_arguments", "dev/src/octaspire_dern_vm.c:octaspire_dern_vm_get_command_line_argument_at", "dev/src/octaspire_dern_vm.c:octaspire_dern_vm_add_environment_variable", "dev/src/octaspire_dern_vm.c:octaspire_dern_vm_get_environment_variable_at"]}
{"id": "C78", "title": "The value of a symbol and the names suggested for an unbound one", "statement": "Evaluating a symbol gives the value it was bound to last in the innermost environment that binds it.  If no environment binds it, the result is an error whose message names the symbol and suggests exactly those of all names bound in the chain of environments that have the least edit distance from it, in the order outer environments first, worded `Did you mean 'a'?`, `'a' or 'b'?`, `'a', 'b' or 'c'?`, or without a suggestion if nothing is bound.  A suggested name always differs from the symbol, and there is a suggestion whenever anything is bound.  (A name that several environments bind is suggested once for each of them.)", "quantifier": "every chain of environments after every history of bindings in them, every symbol, every hash function; names shorter than 2^31 characters", "why_tests_cant": "The bindings are in hash maps that are rebuilt as they grow and change their order, the least distance ranges over all names, and the wording depends on how many names share it.", "anchors": ["dev/src/octaspire_dern_vm.c:octaspire_dern_vm_private_eval_impl", "dev/src/octaspire_dern_environment.c:octaspire_dern_environment_get", "dev/src/octaspire_dern_environment.c:octaspire_dern_environment_set", "dev/src/octaspire_dern_environment.c:octaspire_dern_environment_get_all_names", "dev/src/octaspire_dern_environment.c:octaspire_dern_environment_get_all_names_to_vector", "release/octaspire-dern-amalgamated.c:octaspire_string_levenshtein_distance"]}
{"id": "C79", "title": "Every value is given back exactly once", "statement": "When a machine is released, in whatever state a host program left it, every value that exists is given back to the allocator exactly once and none is left; a value that a collection gave back earlier is never there again, hence not given back again.  A collection gives back exactly the values that are not reachable from the stack, each once, and keeps the others.", "quantifier": "every state a host program can bring a machine into, every content of the stack, every later history", "why_tests_cant": "A leak or a double release depends on the order of allocations and collections over the whole life of a machine; the vector of all values is shortened while it is walked through.", "anchors": ["dev/src/octaspire_dern_vm.c:octaspire_dern_vm_release", "dev/src/octaspire_dern_vm.c:octaspire_dern_vm_gc", "dev/src/octaspire_dern_vm.c:octaspire_dern_vm_private_sweep", "dev/src/octaspire_dern_vm.c:octaspire_dern_vm_private_mark_all", "dev/src/octaspire_dern_vm.c:octaspire_dern_vm_private_release_value"]}
{"id": "C80", "title": "Showing an environment", "statement": "Showing an environment never aborts and gives a header, then the environments outside it one tab deeper, then one line for every name bound in it, each once and sorted, with the latest value of the name, then a footer. The text depends only on the latest value of every name of every environment: not on the history, the hash or the choices of the sort of the C library. If all names are ASCII the values are in one column; with other names they need not be, because the width is counted in characters but filled in octets.", "quantifier": "all chains of environments, all histories of bindings of each, all hashes of names, all sorts that keep what C11 promises, all ways to show values", "why_tests_cant": "Tests show one environment with a few ASCII names, one hash and one C library; the claim is about every history, every hash and every conforming qsort.", "anchors": ["dev/src/octaspire_dern_environment.c:octaspire_dern_environment_private_to_string", "dev/src/octaspire_dern_environment.c:octaspire_dern_environment_to_string", "dev/src/octaspire_dern_environment.c:octaspire_dern_environment_helper_compare_function"]}
{"id": "C81", "title": "Equality and text of tokens", "statement": "Two tokens are equal exactly if they are of the same kind, at the same place and have the same value; this is symmetric and transitive, and reflexive except for NaN. Two tokens have the same text exactly if they are of the same kind, at the same place and have the same value (of reals: what is shown), provided their texts hold no NUL; so tokens that are not reals are equal exactly if their texts are.", "quantifier": "all pairs (triples) of tokens of every kind with any positions and values, all orders on reals, all ways to show reals", "why_tests_cant": "Tests compare a few tokens and a few texts; that no two different tokens are confused is about all pairs.", "anchors": ["dev/src/octaspire_dern_lexer.c:octaspire_dern_lexer_token_is_equal", "dev/src/octaspire_dern_lexer.c:octaspire_dern_lexer_token_to_string", "dev/src/octaspire_dern_lexer.c:octaspire_dern_lexer_token_position_is_equal", "dev/src/octaspire_dern_lexer.c:octaspire_dern_lexer_token_get_type_tag_as_c_string"]}
