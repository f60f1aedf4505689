# Formal model of octaspire/dern in Lean 4 — design

Source: `/repo` (read only). Dern itself is `dev/src/*.c`; the container library
octaspire-core it rests on is only present inside `release/octaspire-dern-amalgamated.c`
(cited as `amalgamated:line`).

## 1. Method

* The code is modelled function by function as executable, total Lean functions. Loops and
  recursion without a structural bound take a depth argument (fuel); running out of it is an outcome
  of its own (`Fault.fuel`) and every statement about a result says "for some depth", so no
  theorem is true because of fuel.
* `abort()`, failed assertions, undefined behaviour, access to a released value, access through
  a null pointer and an unbalanced protection stack are **distinct outcomes** (`Fault`), never
  silently turned into a value.
* The evaluator, special forms and builtins are programs (`Prog`) over the operations the C code
  performs on the virtual machine (allocation with possible collection, reading, writing a payload,
  replacing a payload, push/pop of the protection stack, pending return, exit flag, printing,
  comparison, recursive call). `run` executes them on a machine state `Vm` and records the
  evaluations (`octaspire_dern_vm_eval`) made, with the states before and after each: the
  *trace*. Properties about "what is evaluated, in which order, and that nothing else happens"
  are stated about this trace.
* What the program cannot determine is a parameter over which every theorem is quantified: the
  allocator's addresses, texts composed with formats (messages), floating point results,
  the order of hash map elements, ctype.h on non-ASCII, `%g`.
* Properties of the evaluator quantify over **every reachable state** (`Reached`): every state that
  a finite history of evaluations, collections and client operations can produce from a new machine.
* Specifications are separate (`Verif/Spec/*`): UTF-8 encoding, positional numerals, sequences,
  deques, finite maps, orders, SemVer precedence, plain data, reachability, reorderings.
* Where the code violates a property, the negation is proved with a concrete witness and the part
  that holds is proved as `…_partial`.
* Statements are validated against wrong programs (`seeded/LOG.jsonl`): an edit of the model as a
  realistic bug would make it, and the theorems that stopped proving.

## 2. Layers

| layer | Lean modules | modelled code |
|---|---|---|
| specifications | `Verif/Spec/*` | – |
| text | `Core/Utf8*`, `Core/Text*`, `Core/StringCompare`, `Core/Input` | amalgamated: utf8 2738–3196, string 5119–6860 (construction, push, compare, equality, hash), input 8252–8486 |
| containers | `Core/Vector*`, `Core/List*`, `Core/Map*`, `Core/Semver` | amalgamated: vector 3197–4217, list 4218–4847, queue 4848–5118, map 7165–8251, semver 8624–9900 (compare, add, subtract) |
| lexer | `Dern/Lexer*` | octaspire_dern_lexer.c |
| parser, printer | `Dern/Tree`, `Dern/Parser*`, `Dern/PrintLemmas`, `Dern/ReadBack` | vm.c 3061–3480, value.c 1290–1696 (trees of atoms and vectors) |
| values | `Dern/Heap`, `Dern/Value`, `Dern/Data*`, `Dern/Compare*`, `Dern/EqualLemmas` | value.c 1156–1288, 4878–5146 |
| machine | `Dern/Vm`, `Dern/GcLemmas`, `Dern/Agree` | vm.c 1719–1804, 2945–3058, value.c 4732–4857 |
| environments | `Dern/Env` | environment.c |
| evaluator | `Dern/Prog`, `Dern/Special`, `Dern/Builtins`, `Dern/Eval` | vm.c 3485–4312, stdlib.c (list in section 4) |
| meta theory | `Dern/Safe*`, `Dern/Refines`, `Dern/Sound`, `Dern/Keep`, `Dern/New`, `Dern/Trace`, `Dern/Fine`, `Dern/Steps`, `Dern/Inversion`, `Dern/Calls`, `Dern/Forms`, `Dern/Symbols`, `Dern/Apply`, `Dern/Functions`, `Dern/Copy*`, `Dern/Total` | – |
| properties | `Props/C*.lean` | one file per property, theorems named `cNN_*` |

## 3. Properties: what is modelled and how it is proved

**C01, C02** UTF-8. `Core/Utf8` models encoder and decoder octet by octet with reads outside of the
given length as a fault; compared with `Spec/Utf8`. Case analysis on the lead octet, arithmetic by
`omega`. Negative: U+0000 does not round trip; surrogates and numbers above U+10FFFF are decoded.

**C03** Positions. `Core/Input` (peek, pop, append); invariant by induction over the history against
`Spec/Position`. Negative: after draining the input and appending, line and column are stale.

**C04, C09** Lexer progress, insignificant whitespace: induction over the input; ctype is an oracle.

**C05, C06** Integer literals: positional value of `Spec/Numeral`, induction over the digits.
Negative: −2³¹, more than 256 digits.

**C07, C08** Strings and characters read back: simulation of the printed text by the lexer.
Negative: `]` and `|` inside strings, U+0000.

**C10, C11, C12** Reader and printer: mutual structural induction over trees; the parser with fuel is
shown to need no more than the length of the text.

**C13, C14, C15** Equality, comparison, hash: `compareRef` on the heap (recursive, with overflow
as undefined behaviour) is related to an order on inductive data (`Spec/Data`, `Spec/Order`), by
induction on data. Negative: NaN, overflow, hash maps, hash of containers.

**C16** Copy: `copyValue` as a program; the copy relation is proved by induction on data with the
frame condition "only new values".

**C17** Hash map: refinement of `Spec/FiniteMap` for every history, with growth, rehashing and the
assertions of the code.

**C18–C20** Vector, queue, list: refinements of `Spec/Seq`, `Spec/Deque`; the list lives in a node
memory, so dangling accesses are faults.

**C21, C38** Semantic versions: `Spec/SemVer`.

**C22** Collector: mark and sweep on an arbitrary heap with cycles; `Spec/Reach`; termination with
the number of values as measure. Negative: documentation vectors and the pending return.

**C23, C24** Unique ids, stack balance: invariants over every reachable state by induction on
programs (`Safe`, `Sound`).

**C25** Timing of collections (`Dern/Timing`, `Props/C25`): simulation between the collecting machine and a
machine that never collects, operation by operation, for arbitrary programs; `Dern/Fuel`: the bound on the
recursion does not matter. Negative: three programs that use a released value (section 6).

**C26–C34, C39, C40** Evaluation: a weakest precondition calculus with traces (`Trace`, `Fine`,
`Steps`); each special form is characterised by the exact sequence of evaluations, with everything
in between shown `Quiet` (nothing a program can observe changes).

**C35** define (`Props/C35`) and `=` (`Props/C35Assign`): the evaluations made, every refusal, and the exact
change of the environment / value with everything else unchanged (`Quiet`); then evaluation of the name and,
for `=`, the data denoted (`Denotes`).

**C36** Reading a text: the loop of octaspire_dern_vm_read_from_octaspire_input as a program over the
parser; the trace is the list of top-level forms.

**C37** String order: `Spec/Order`, strcmp on UTF-8 octets.

**C41–C44** `octaspire_string` as an object (two growing blocks: characters and cached UTF-8
octets) refines a family of plain texts (`Spec/Texts`) under histories of operations; the
Levenshtein matrix against the least number of edits (`Spec/Edit`); the permutation iterator (Heap's
method, an explicit counter machine) against the recursive method, which visits every arrangement
once; searching, removing and splitting against occurrences and cuts (`Spec/Search`).

**C45, C46** The builtins of the evaluator (`Dern/Conversions.lean`, `Dern/Builtins.lean`), run through the interface of
C34/C39: what a call by name does is first the evaluation of the arguments, then exactly one of the outcomes listed in
`IsARun` / `ExtremeRun`. The order of C46 is that of C14.

**C47** The text queries of the evaluator (`Dern/Conversions.lean`, `Dern/Collections.lean`) rest on the string
functions of C41, C42, C44; the statements use `Spec/Search.lean` and `Spec/Edit.lean`. The vectors they answer with are
built element by element while the collector may run (`Props/Effects.lean`, `Building`).

**C48** `pop-back`, `pop-front`, `+=` (vectors, lists, queues), `-==` (vectors), `list`, `queue`, `queue-with-max-length`
(`Dern/Containers.lean`, `Dern/Collections.lean`): relations `PopRun`, `AppendRun`, `PushRun`, `RemoveRun`, `NewPile`,
`QueueMaxRun` over the heaps before and after, with frame clauses; proved by Hoare rules for in-place changes without
allocation (`Changing`) and with allocation and collection in between (`Pushing`), `Props/InPlace.lean`.

**C49** `len`, `ln@` (vectors and lists), `find` and `-=` (vectors of data)
(Builtins/Containers/Collections): equality of elements is `Data.Same` of the data they denote (C13);
`Watching` keeps the inspected values while the result vector is built, `Changing` while elements are
removed in place. Preconditions: data in the sense of C13; the keys of `-=` do not contain the vector;
an index outside of a list has no result (the code aborts).

**C50** `hash-map`, `=`, `+=`, `-=`, `ln@`, `find` on hash maps whose keys are nil, booleans, integers or texts
(`Dern/Collections.lean`, `Dern/Containers.lean`): a hash map is abstracted to a function from keys to
values (`IsMap`); the invariant `Mapping` is kept through rearrangements of the buckets (C04 is the
container itself). Partial: adding a key that is present is outside of the model (`Fault.external`), and
the model hashes keys as they are, not as they were when inserted.

**C51** Printed forms are specified in `Verif.Spec.Show` (numerals by their value, sequences with one space between the
elements, hash maps as key/value pairs in iteration order); `print_shows` (induction on the data) relates the printer of the heap
model to it; functions and macros print by their name (`Shown`).  Places of a format string are specified by quote parity
(`Places`: a `{}` is a place iff the number of `'` directly before it is even).  The builtins are then followed with the program
logic.  `c51_reads_back` connects the printed form with C10.  `print` writes exactly one octet per character of the format string
(`clipped`), which is UTF-8 only for ASCII formats (`c51_ascii`, `c51_not_utf8`).  Partial: no environments, ports, builtins or
special forms among the printed values.

- **C52** (joining, stripping, overwriting texts): the specification says by relations what each function appends or takes out (`AddsText`, `Strips` over `Spec.Stripped`) and that only the first value changes; proved for the functions called by name, by induction over the arguments and over the nesting of vectors, with the invariant that only the text under construction differs from the state before (`Changing`, `Joining`).
- **C53** (numbers and characters in place): relations `Chain`/`Upped`/`Downed` for one step after the other and `Accrues`/`AccruesAll` for what an argument adds (numbers, texts of digits via `Spec.Numeral.value`, vectors recursively); proved for the functions called by name by induction over the arguments and the recursion depth, with the invariant that only the changed values differ from the state before. Reals: which real results is not said (floating-point addition is opaque in the model).
- **C54** (`template`, stdlib.c:4045-4442): the relations `Item`/`Items` say for every item which values it stands for, which evaluations it takes and which new vectors are made; mutual with nesting. Proof: `Secret` (vectors that are being made while programs are evaluated are unknown to them, so keep their elements), induction over the items inside an induction over the depth of the handler.
- **C55** (protection stack; vm.c push_value/pop_value/gc): `Protected` (on the stack, or behind protected values only the host knows), `Live`. Proof: `Dern/Keep.lean`, an invariant of every operation (`Guarded` values stay allocated) lifted over every program and every depth of calls.
- **C56** (`generate`, stdlib.c:1551-2179): `GenerateRun` (with `FillRun`, `GenTurns`, `MapRun`, `OnVectors`, `MapTurns`) says which forms are evaluated in which states and what the new collection consists of. Proof: `Props/Stash.lean` (values on the protection stack that no program knows are neither changed nor released while programs are evaluated), induction over the number of turns.
- **C57** (comparison operators, stdlib.c:3689-4043): `CompareRun` with one `Judge` per operator (equal data, same value, position in the order of C14); induction over the arguments, `===` by uniqueness of ids (an invariant, C23).
- **C58** (`quote`, `eval`, stdlib.c:1224-1549, 2181-2208): `QuoteRun`, `EvalRun` (evaluating twice) and `ApplyRun` (building a call from evaluated arguments); induction over the arguments, the form being built is known to nobody until it is evaluated (`Stashed`).
- **C59** (macros): `Props/C59.lean`; `Expansion` is an inductive relation over the evaluations made (argument forms bound unevaluated, body evaluated in the new environment, its value evaluated there again, re-expansion in the environment of the caller), proved by induction on the handler depth for every reachable state, with the lookup lemmas of C26 for the re-expansion test. `_partial`: nothing is said when the expansion begins with a vector (the code evaluates that first element only to look whether it is a macro).
- **C60** (small builtin functions): one relation per function between the argument values and the result; elements and documentation that are shared are stated by identity, new values by freshness; proved from the programs of `not`, `uid`, `doc`, `vector`, `env-new`, `env-current`, `env-global`, `abort`, for collections at any allocation.
- **C61** (conversions, functions of mathematics): `to-integer`, `to-real`, `character` and the functions of mathematics as relations between arguments and result; the specification says what the integral part of a real is by inequalities over exact values, and what number a text begins with by a grammar (white space, sign, digits); the model has the octet loop of `strtoimax`, the `(int32_t)` casts (undefined out of range) and the exact `(double)` of an integer; what `strtod` and the functions of mathematics give is an oracle.
- **C62** (`copy`, `+` on vectors): the loop with a predicate is an inductive relation over the evaluations of `(f element index)`, each with its states before and after; copies are stated by `Copied` between the memory before and after the copying, with all parts new.  Proof: induction over the depth of the calls (the loop is a tail call in the model), the new vector being hidden from programs until the end (`Stashed`); that the copy's root is not one of its own parts by well-foundedness of the copy.
- **C63** (versions as programs see them): one step is the inductive relation `VersionStep` (refused as mixed, refused as too much, raised, lowered, identifiers only), shown to be what the model of `octaspire_semver_add_or_subtract` does and to have a unique result; the loops of `+`, `-`, `+=`, `-=` are relations over the argument list that say which version an argument is when it is the changed one itself.  Proof: induction over the arguments with `Joining` (a new value being changed) and `Changing` (an old one).
- **C64** (`read-and-eval-string`, `read-and-eval-path`, `require`): `ReadsText` is `Session` of C36 (or the error for an empty text), the text being that of the string up to the first U+0000 (decoding undoes encoding, C01 to C03), or arbitrary for files. Proof: the loop lemma of C36 in the state of the call, soundness of the reader (`ok_evalText`) for what follows it.
- **C65** (ports, host-get-*): one relation per function between arguments and result, with the answers of the operating system arbitrary; `WriteCount` is an inductive relation over the (nested) vector that is written, its leaves counted with the UTF-8 specification of C01. Proof: steps that change nothing old (`Vm.Step`), induction over octets read, elements written, and depth.
- **C66** (howto): `Forming.lean` (spHowto, howtoLoop, howtoTurn, howtoTry, howtoArgs, arrangements). An attempt is a state, an operator, arguments and a new form; `Trial`, `HowtoTurns`, `HowtoRounds` describe what is evaluated. Proved with an invariant: everything created while a form is made is hidden (known to nobody but `howto`), the form is protected by the stack first and by the result vector later, so neither evaluated programs nor collections can change it. The order of the bindings of an environment is arbitrary and may differ from turn to turn (in the code it is the order of the hash table), so the theorem does not say that every binding is tried.
- **C67** (cp@): `Containers.lean` (biCpAt, cpAtText, cpAtVec, bitAt, versionObj, indexOf, round24, mapElement). `CpAtRun`, `CpMapRun` list the cases; `Nearest` is the conversion to `float`, shown to be a function and the identity up to 2^24. The vector made by a slice is neither on the stack nor referred to by anything; proved with an invariant on unprotected values (`Spare.lean`: an allocation that collects releases every value that nothing refers to), so whenever there is a result at all, nothing was collected while it was filled.
- **C68** (base64): `Core/Base64.lean` models encode and decode of octaspire_helpers; `Spec/Base64.lean` is RFC 4648 by division and remainder. Proved by recursion over groups of three octets; the loop that replaces characters by paddings is analysed for every position of the newlines in the last group; decoding depends only on the characters that are not whitespace. `isspace` is any function that is right on ASCII.
- **C69** (interactive session): `Dern/Repl.lean` models reading a line, the accumulated text, one turn (lex, parse, evaluate, print) and the loop of repl.c. `Dialogue`/`Reply` describe the session by the parser of C05 to C08, the events of the evaluator and the octets written. Proved by induction over the lines with the rules of `Trace`; corollaries: complete forms on lines of their own are answered in order, a line without a token is undefined behaviour, an unclosed parenthesis is answered with an error. Partial: no claim after a program has changed nil, true or false.
- **C70** (the command dern): `readOptions` and `replMain` of `Dern/Repl.lean`; options are specified by a grammar of command lines, the command by `StringsRun`, `FileRun` and C69's `Dialogue`. Proved by induction over the grammar and the strings. Partial for the same reason as C69.
- **C71** (ports on files): `Dern/Port.lean` models octaspire_dern_port.c function by function on top of `Spec/Stdio.lean`, a description of C streams (buffers, positions, failures; undefined behaviour when input and output follow each other without a seek) in which every failure and every move of a buffer is chosen by an arbitrary oracle. Proved by induction over histories of steps with their answers (`Performs`), with an invariant that relates files, buffers and the octets accepted so far. Negative theorems: reading directly after writing is undefined, copying a port whose file cannot be opened again uses a null pointer, the length is that of the moment of opening.
- **C72** (`Core/Format.lean`, `Props/C72.lean`): the loop of `octaspire_string_new_vformat` over an arbitrary `vsnprintf` that obeys `Spec.Snprintf` and an arbitrary allocator; induction on the number of doublings; the text is related to the octets by C02's `LongestText`.
- **C73** (arguments for functions written in C): model `Prog.getArgument`, `Prog.pick`, `Prog.getOfType`, `CData` in `Dern/Arguments.lean`; specification `Fitting`, `Unpushed` in `Props/C73.lean`. Both directions: run equations for given, refused and aborting requests, and an inversion of every returning run. The variants that evaluate the element first (`Prog.getEvaluated`, `Prog.getVectorEvaluated`): `c73_evaluated`, from every reachable state; `c73_vector_unchecked` shows that the one for vectors checks the element and not its value. Error texts are left open; C data is a table from identities.
- **C74** (whole files): model `Files.pathToBuffer`, `Files.inputFromPath` over `Spec/Stdio`, with the allocator and the reader of `Core/Files.lean`; a total Hoare calculus (`Does`): every run returns and satisfies the disjunction whole file / nothing. The allocations inside the string of an input are taken as granted and not counted.
- **C75** (requests refused on purpose): model `Files.Allocator`, `Files.Reader`; specification: histories `Asking` and `Nat.testBit`; induction over the history. The intended statement (bit k for all 32 requests) is proved for k < 8 and refuted for 8 ≤ k < 32.
- **C76** (`find` with several keys): the loop `findEach` of Containers.lean; specification: `Finds` (positions of one key) and `FoundAt`; invariant `Many` of the answer vector, with `Watching` applied to the answers that are already there while the next search runs.
- **C77** (libraries, arguments, variables): modelled: `octaspire_dern_vm_add_library`, `_has_library`, `_get_library`, the additions, counts and accessors of command line arguments and environment variables (`Dern/Registry.lean`), over the models of the hash map (C17), the vector (C18) and the string with its lazily computed octets (C41). Proof: simulation of a registry by three lists, for every history; a found library stays. Negative: ill-formed ends of C strings are silently lost, so that distinct names collide. Names are texts in the map (their cached octets are left out); allocation does not fail.
- **C78** (symbols and suggestions): modelled: `octaspire_dern_environment_set`, `_get`, `_get_all_names(_to_vector)` over the model of the hash map, and the three loops of `octaspire_dern_vm_private_eval_impl` that find, count and collect the nearest names, with the message (`Dern/SymbolValue.lean`). Proof: the map after a history of bindings (C17) gives the latest value and each name once; the loops keep exactly the names at the least edit distance (C42) and word them as the specification. Texts, not octets: the formatting is C72's. Negative: a shadowed name is suggested repeatedly.
- **C79** (released once): modelled: `octaspire_dern_vm_gc`, `_private_mark_all`, `_private_sweep` with their index loops over the vectors `stack` and `all` (model of C18), `_private_release_value` and `octaspire_dern_vm_release` (`Dern/Release.lean`), with a log of released values. Proof: the loops refine the list functions of `Vm.lean` (so C22 holds of them), and the invariants of reachable states give that `all` is exactly the values that exist, without duplicates; releases are permanent by the monotonicity of reachable states. Payloads (strings, ports, C data) are released with their value and not counted separately; the libraries, arguments and variables are released before and hold no values (no binary plugins).
- **C80** (showing an environment): modelled: `octaspire_dern_environment_private_to_string` over the hash maps of a chain of environments (models of C17, C78), its width loop, the comparison of keys and the lines (`Dern/EnvironmentText.lean`); parameters: the text of a value, and qsort as any function with the promise of C11 (`Sorter`, shown to exist). Proof: the elements of a map are the names bound with their latest values (C78), the comparison is consistent (`lexCmp` is a total order), so the sorted rows are unique (`c80_determined`); the text follows by induction on the chain. `c80_misaligned` is the negative result. Not modelled: an environment that holds itself (the code recurses without end), names longer than INT_MAX.
- **C81** (tokens): modelled: `octaspire_dern_lexer_token_is_equal`, `_token_to_string`, the table of tag names (`Dern/TokenText.lean`), for every tag; parameters: `<=` on doubles and `%g`. Proof: the text is cut at its delimiters from the left (digits never contain `,` or a space, tag names never contain a space), the tag names differ, and within one tag the rest gives the value. Not modelled: the allocator of a token (one allocator is assumed), semantic versions with more than three numbers (the lexer makes none).

## 4. What is modelled of the evaluator

Modelled completely: octaspire_dern_vm_eval and its helper (symbols, calls of special forms,
builtins, functions, macros), environments (get, set, extend), call_lambda, copy, compare, to_string;
all special forms (`define eval quote select if while for == === != <= < > >= fn macro and or do generate template
howto`); builtins
`= uid abort not return vector exit doc len env-new env-current env-global mod / * + - ++ -- += -= -==
pop-back pop-front hash-map queue queue-with-max-length list find split ln@ cp@ starts-with? distance max min
sin cos tan asin acos atan sqrt pow to-integer to-real character string-format to-string print println
print-readably copy` and the predicates for types. What `print` writes is the output of the machine (octets); the texts of
reals, builtins and special forms are a parameter of the world.

Also modelled (`Dern/Outside.lean`), with whatever comes from outside the virtual machine (what files contain,
what a port answers, what the host's environment is) arbitrary: the ports (`input-file-open output-file-open
io-file-open port-read port-write port-seek port-dist port-length port-flush port-close port-supports-*?`),
`read-and-eval-path`, `read-and-eval-string`, `require` of source files, `host-get-*`. Reading and evaluating runs the model of the
lexer, parser and evaluator on the arbitrary text. `outsideLibrary` is the whole standard library made this way, and
`outsideLibrary_safe` proves that it satisfies `Library.Safe`.

**Parameters** (`Library`): the machine is stated for an arbitrary `Library` of further functions, so that the functions of
plugins (shared libraries) are covered as well.  A theorem about evaluation holds for every `Library`; where the callee's behaviour
matters, the hypothesis `Library.Safe` (no invented references, balanced stack) or the condition that the callee is a
modelled one is visible in the statement; for the standard library the hypothesis is discharged (`c23_*`, `c24_*`).

**Not modelled**: loading of binary plugins (`require` of a shared library ends the model's run), the state of ports and files
as seen by the builtins (there the answers of ports are arbitrary; C71 is about the functions of octaspire_dern_port.c that the builtins call), debug mode; of the program dern its colours, banner, usage and version texts and environment variables,
release callbacks of containers (the collector owns values), error message texts (arbitrary), stack
height checks (they are consequences of C24, except in the four functions of `c24_open_aborts` and
`c24_close_aborts`, where the model has them).

## 5. Trusted base

* Lean 4.33.0's kernel. Axioms of every theorem: at most `propext`, `Classical.choice`,
  `Quot.sound`. No axioms of our own, no compiled evaluation.
* The correspondence between model and code, by reading. Every definition cites file and lines.
* Assumptions about C and its library, all visible in the model:
  - memory allocation never fails; the C stack is unbounded (exhausting either is outside);
  - 64-bit `size_t`/`uintmax_t`, 32-bit `int`, two's complement; conversions of `size_t` to `int`
    keep the low 32 bits; signed overflow is undefined behaviour (a fault);
  - `pow(base, i)` is exact if the result is representable; `isspace`/`isdigit`/… are oracles that
    are right on ASCII; `%g` is an oracle; `strcmp` determines only a sign;
  - floating point arithmetic of the language (reals) gives arbitrary results; comparison of reals
    with reals and integers is IEEE (`Spec/Double`);
  - streams of the C library behave as `Spec/Stdio.lean` says: only this program changes the files, every operation may fail, output on a
    stream opened for appending goes to the end of the file at a time of the library's choosing, `fflush` on a stream whose
    last operation was input does nothing (POSIX);
  - growth factors and load factors, computed in `float` by the code, are computed exactly;
  - addresses are object identities: an address of a released value is not given out again in the
    model; any access to a released value is `Fault.released`, so statements about executions that
    return are not affected by reuse of memory;
  - the number of buckets and the order of a language level hash map are arbitrary (C17 describes
    the table itself);
  - a payload has the address of its cell; replacing a payload (set_collection, clear_to_nil) makes
    pointers to the old one dangling, modelled by a generation number;
  - environments keep a snapshot of the name of a binding (the code keeps the symbol value and hashes
    its text; mutation of that symbol value afterwards is not reflected);
  - hash map and environment tables do not run release callbacks on values.

## 6. Disagreements between property and code (all proved as theorems)

See the notes in `MANIFEST.json` and the sections "negative results" of `Props/C*.lean`. The most
important: return leaks out of top-level forms and argument lists (C32), the value of a
pending return and documentation vectors are not roots of the collector (C22, C25), integer
comparison by subtraction overflows (C13, C14), equal values with different hashes (C15),
`put` twice under a key (C17), strings with `]` or `|` do not read back (C07).
