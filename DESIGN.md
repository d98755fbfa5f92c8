# Formal model of cppfw/utki in Lean 4

`/repo` is read as text only. The model is of the sources in `/repo/src/utki` with the
default build configuration of the repository (`-std=c++17`, `config/base/base.mk`), 64-bit
`size_t`/`ptrdiff_t`, 32-bit `int`/`unsigned`, 8-bit `char`. Where a C++20 branch differs
(`starts_with`, `ends_with`, `trim*`) both are modelled.

## Layout

* `lean/Verif/Core.lean` – outcomes (`Res`), checked memory access, the pieces of the C++ standard
  library the code calls (`string_view::find/substr`, `from_chars`, `to_chars`, ...).
* `lean/Verif/Model/*.lean` – the model, function by function, each definition citing `/repo` lines.
* `lean/Verif/Spec/*.lean` – small specifications that do not mention the model
  (RFC 4648 encoder, UTF-8 encoding, pre-order of a forest, numeral values, ...).
* `lean/Verif/Lemmas/*.lean` – helper lemmas.
* `lean/Verif/Props/*.lean` – the property theorems `Cnn_...`, with satisfiability examples beside them.
* `lean/Verif/Conformance/*.lean` – the inputs and expected outputs of the repository's own unit tests
  (`/repo/tests/unit/src`), evaluated on the model. They test that the model is faithful to the code; no property rests on them.

## Outcomes

`Res α = ok a | throw e | ub why | abort | terminate | diverge`.  Undefined behaviour (reads outside an
object, over-wide shifts, signed overflow, use of invalid iterators), failing `ASSERT` in debug
builds (`abort`), an exception leaving a `noexcept` function (`terminate`), and non-termination
(`diverge`, only where the code can really loop forever) are distinct results, so a theorem
saying `f x = .ok y` excludes all of them. `ASSERT` is modelled with a flag `dbg : Bool`
(debug/release); theorems hold for both values.

## Conventions

* `char`/`uint8_t` bytes are `BitVec 8`; fixed-width unsigned integers are `BitVec w`; `size_t` quantities that
  are lengths/positions of existing objects are `Nat` (an object has fewer than 2^64 elements); `size_t`
  *arguments* that can be any 64-bit value (counts, offsets, `npos`) are `Nat` together with, where it
  matters, the hypothesis `< 2^64`.
* containers are `List`s, iterators are positions (`Nat`); dereferencing outside is `ub`.
* templates over element types are polymorphic definitions; callables are functions.
* histories are lists of operations folded over a state; properties over histories are proved by induction.

## Properties: what is modelled and how it is proved

| id | model | proof |
|----|-------|-------|
| C01–C04 | `serialize_le/be`, `deserialize_le/be` as loops over a byte memory (list) with a write position | induction on the loop, `256^i` positional arithmetic on `BitVec` |
| C05 | deserializer state machine over a checked span | refinement to "list of remaining bytes", induction over the op list |
| C06 | same + serializers | induction over the field list |
| C07–C09 | decode table as literal list, quad decoder, whole function with iterator positions | table checked by `decide` over all 256 entries, induction over quads; encoder is the spec |
| C10–C14 | `utf8_iterator` over checked memory (span end / NUL-terminated), `to_utf8` | bit-level lemmas on `BitVec`, induction over the character list |
| C15–C20 | `split`, `join`, whitespace `split`, `trim*`, `starts_with` with positions, `find`, `substr` | loop invariants |
| C21 | `ends_with` (both branches) | C++17 branch refuted by a witness; partial: soundness and exact condition |
| C22 | 32-bit product | exact length modulo 2^32; claim refuted on overflow, partial otherwise |
| C23 | retry loop over an abstract `vsnprintf` contract | case analysis, all lengths |
| C24–C28, C83 | `word_wrap` as state machine over positions | loop invariants; C28 and C83 refuted by witnesses; partial: exactly where words are divided, and how much room is wasted |
| C29–C36 | `string_parser`, `from_chars`/`to_chars` for integers per the standard, `to_string` | induction on digit strings. For floating point `read_number` see C78–C82 |
| C37–C44 | tree/traversal with explicit index stacks | zipper-style invariants between index stacks and pre-order lists, induction over forests |
| C45–C46 | `partition`, `quick_sort` on an index-addressed array | loop invariants, well-founded recursion, permutation |
| C47–C50 | linq operations on lists, with moved-from states for elements | induction |
| C51–C52 | view iterators as positions | induction |
| C53–C54 | `std::bitset` as `BitVec n` | bit extensionality, induction over histories |
| C55–C57 | signal as list with fresh ids; re-entrant emission as a small-step loop; argument forwarding with moved-from values | induction over histories; C57 refuted for movable by-value arguments + partial |
| C58–C59 | interleaving transition system for any number of threads, with message views for acquire/release | inductive invariant; liveness over infinite executions with a fair scheduler |
| C60 | scope programs with exceptions | structural induction |
| C61 | instance register + live objects | invariant over histories |
| C62–C63 | ownership heap (handles, reference counts) | invariant over histories |
| C64 | nesting chains as an inductive type | structural induction |
| C65 | loop with 64-bit counters | well-founded induction |
| C66–C67 | sorted association lists for `std::map` | induction |
| C68–C69 | span as (memory, offset, size) | case analysis, induction |
| C70–C77 | small functions | direct |
| C78–C82 | the vendored fast_float library (scanner, 64-bit conversion with the table of powers of five, big integers, exact comparison), `utki::from_chars` for floating point, `read_number`; the floating-point unit by IEEE-754 laws, for every rounding mode | scanner: induction over the text against a grammar; conversion: interval bounds for every table entry (checked by the kernel for the whole table) and a certificate per exponent that excludes the undecidable cases; long numbers: exact integer comparison; a separate specification of "nearest, ties to even" |
| C83 | `word_wrap` | invariant of the loop; refuted for words that exactly fill the line, weaker bound proved |
| C84 | the same code as C78–C82 with the answers to all preprocessor questions as a parameter | on every platform the value stored is the one nearest to the same number (also beyond the digit limit, where that number is not the value of the literal), and the nearest number is unique |
| C85 | `pi`, `two_pi`, `log_2`, `deg_to_rad`, `rad_to_deg` for `double`, `float`, `long double` and integer types; IEEE-754 arithmetic with the rounding as a parameter that rounds to nearest | the error of one rounding from the definition of nearest, then interval arithmetic over the reals with Mathlib's bounds on pi and a series for log 2 |
| C86 | `sign`, `pow2`..`pow6` for `double`, `float` and `long double` | error propagation through the products, separately above and below 1, also when a product overflows; monotonicity of rounding for the order |
| C87 | the model of C45 with a comparator that counts its calls | exact count of one partition, recurrence for the bound; a family of worst ranges built by induction; a sorted range is never changed |
| C88 | `demangle` over a heap of `malloc` blocks, with the demangler and allocation failures as parameters | case analysis of the run |
| C89 | the type functions of type_traits.hpp over terms for C++ types | structural recursion over types; the result is characterized by uniqueness |
| C90 | linq operations with function objects that have a state, can throw or not return | induction; the calls are those of a separate specification `visit` |
| C91 | the `dbg` parameter of every model function that contains assertions | relation between the two builds, preserved by composition; induction over loops and histories |
| C92 | several signals with node names that are unique across them, callbacks as values with state; implicit copy construction and assignment | invariant that ties valid connections, computed from the history alone, to nodes; induction over histories |
| C93 | the buffers that `what()` allocates and frees, the exceptions that own them and the pointers handed out; threads whose steps are those of the assignment of a string | invariant tying owners to buffers, induction over histories and schedules; refuted for a second call and for a shared object by concrete histories |
| C94 | singleton objects with their storage duration and the static pointer, to the end of the process | invariant over histories, then case analysis of the end; refuted in general |
| C95 | `++` and `--` of traversal iterators once more, changing the iterator in place, with calls of `push_back` that fail by an arbitrary plan | induction over the levels `--` goes down; refuted for every second request |
| C96 | threads that write to one stream piece by piece, with or without a lock around the calls; any schedule | invariants of the schedule; refuted without lock by a schedule of two threads |
| C97 | `++` and `--` once more, counting the levels their loops go up or down | the count is the change of depth; amortised over a traversal |
| C98 | the traversal once more with identities of places in vectors in place of paths: changes give new identities to the places whose iterators `std::vector` invalidates | invariant: different places have different identities, none is from the future; the iterators of C37-C42 correspond place by place; a history theorem by induction |
| C99 | the user's loop with `erase` on the model of C98 | the specification of the result is invariant under erasing, and is the forest itself if no node satisfies the predicate |
| C100 | the client's reading loop on the models of C29-C36 and C82 | induction over the list: each token ends at the separator, which is skipped completely |
| C101 | threads that interleave steps on counters, references and messages; happens-before over the list of events | invariants: the counter is the number of references, every use is anchored to something that happens before the last decrement |
| C102 | the model of C24-C28 applied twice | the lines fit (C24), so C27 applies to them; the loop invariant at the end gives the last line |
| C103 | the models of C41 and C42 composed | the outline after both steps is the old one, and determines the forest; the level at which erase leaves the iterator |
| C104 | Spec/DecimalRound.lean: a number of n significant digits nearest to a value; the reader is the fast_float model of C79 and the read_number model of C82 | neighbouring floating-point numbers are further apart than the decimal error (and the other way round), together with C79/C82: the literal is rounded to the number it was written from |
| C105 | the fast_float model of C79 | rounding to nearest, ties to even, is monotone; C79 |
| C106 | Spec order LexLess of C70; models of serialize and to_utf8 | the first difference of the encoded forms is inside the form of the first different item, and goes the same way |
| C107 | models of to_utf8, to_utf32, base64_decode | induction over the forms of the first part; the loops do not depend on what was already decoded |
| C108 | Model/SortDepth.lean: quick_sort of Model/Sort.lean returning in addition the depth of its calls, 1 + the maximum of the two calls; C108_same: without the depth it is the model of C45 | induction over the recursion: the parts are shorter; for the worst order the partition leaves all other elements in one part; for sorted ranges the pivot splits in halves |
| C109 | Spec/DataRace.lean: happens-before and freedom from data races over a list of events; Model/SingletonThreads.lean: the accesses to instance() as events of threads with program counters, any interleaving | invariant over the runs: the last access to the pointer happens before every operation of whoever may access it next, so the value looked at is still the value when it is stored |
| C110 | models of split, join and word_wrap of C15-C18, C24 | split and words: the inverses and the uniqueness of C15-C18; word_wrap: a step looks only at characters up to the current one, and the loop commutes with moving the text |
| C111 | model of C45; another sorting function is any sorted permutation of the elements | two sorted permutations: counting the elements less than a given one shows that elements at the same place are equivalent |
| C112 | model of C24; the number of lines from a position on as a relation | loop invariant: the loop from the beginning of a line does what the relation says; then induction over the lines for the smaller width: the line with the greater width never begins earlier |
| C113 | model of C24; a division into lines is any list of lines that gives the text with spaces and newlines between them | induction over the other division: wrapping is never behind it |
| C114 | any number of spin locks with release/acquire views, threads with the set of locks they hold | invariant: who holds a lock has seen all writes under it; no deadlock: by induction on the greatest lock held the holder can always be brought to release; a cycle of waiting threads is invariant; progress in infinite executions with a fair scheduler: by induction on the locks held, following the chain of waiting holders to ever greater locks |
| C115 | spans as references (object, offset, size) into a memory of objects; reads are those of C68 (C115_reads) | one assignment by cases on object and offset; histories by induction |
| C116 | overload resolution for one argument: viable functors, ranking of conversion sequences, preference of non-templates, order of templates | being better is asymmetric, so the winner is unique and independent of the order; case analysis by rank |
| C117 | utf8_iterator over checked memory, as for C10-C14; Spec/Utf8Any: sequences and their numbers | induction over the bytes that are left; the bits of the loop as base 64 numbers |
| C118 | a log of events over all signals and the lists of callbacks of the existing ones; callbacks as programs over create, destroy, connect, disconnect, emit; Spec/SignalNet: what the log of a correct run may contain | invariant that projects to that of C55 for each signal; induction over the fuel and over the programs |
| C119 | Model/Preprocessor: #define, #undef and #if over a list of object-like macros, with redefinition as an error; Model/Config: the directives of config.hpp. Spec/Config: what compilers predefine | each section is run symbolically by cases on the system, the compiler and the processor; a section leaves alone what it does not define |
| C120 | Model/Windows: the directives of windows.hpp over the preprocessor of C119, <windows.h> as any function on the macros | the directives are run symbolically; #undef leaves other macros alone |
| C121 | Model/Macros: tokens, the arguments of a macro call, and the replacement of ASSERT; Spec/Macros: arguments by a grammar | induction over the grammar of arguments |
| C122 | Model/AssertOverloads: the twelve overloads, implicit conversions by rank, the best viable function; Spec/AssertOverloads: what a condition means | cases over the kinds of conditions, for all values and functions |
| C123 | Model/SpanConv: constructors with their constraints, the choice among them, whether their bodies compile; overload sets of functions that take spans | cases over kinds of objects, for all types of elements |
| C124 | Model/LinqReuse: the variable, the aggregator as a reference or an owner, sequences of uses; Spec/LinqReuse: View and Owned | induction over the sequence of uses, with C50 for each |
| C125 | Model/VisitMany: overload resolution with several arguments, partial ordering of generic call operators, visits of several variants; Spec/VisitMany: Takes, MostSpecific, Costs | induction over parameter lists; the order is antisymmetric |
| C126 | Model/SharedRef; Props/SharedGraph: Refers, Root, Reachable, Acyclic | well-founded induction over the finite graph of references, on the invariant of C62 |
| C127 | Model/RefCompare over the member get of Model/SharedRef and Model/UniqueRef; Spec/RefCompare: Same, First, Ascending | the invariants of C62 and C63; induction over the insertions |
| C128 | Model/SingletonLibs: symbol lookup on ELF and Windows, one copy of the variable for each module; histories in Props/SingletonLibs | the copy found is the first exported in the order of loading; reduction to C61 |
| C129 | Model/Destructable: classes, virtual destructors, destruction, delete | mutual induction over the hierarchy |
| C130 | Model/MathExcess: conversions to and from the wider format, the functions of math.hpp | error analysis with two roundings; products of floats are exact in the wider format |
| C131 | Model/TreeInit: initializers, conversions to the parameter types, list-initialization, overload resolution, indeterminate values | mutual induction over nested lists |
| C132 | Model/TreeAlloc: trees with the blocks of memory they own, requests that may fail, cleaning up when an exception passes | induction over trees with a calculus of operations that acquire and release memory; refinement to the model of C41 and C42 |
| C133 | Model/SignalAlloc: lists of callbacks with the blocks of memory they own, requests that may fail | induction over lists of callbacks with the calculus of C132 |
| C134 | Model/SortCopies: the C++17 code with the objects it makes and operations of elements that may throw | postconditions of each function for normal and abnormal ends, induction over the recursion |
| C135 | Model/LinqAlloc: the operations with the blocks that vectors, map nodes and elements own | ownership of blocks as an invariant of the loops; group_by by the theorem of C48 for its plain result |
| C136 | Model/TreeAssign: nodes with addresses in buffers that are requested and given back, copy and move assignment of vectors in both libraries | ownership of buffers (which buffers become which others) by induction over the depth; the hole a moved part leaves for own parts |
| C137 | Model/TreeDepth and Model/TreeAssign: copying, destroying, assigning and comparing with room for a number of nested calls | induction over the room, the first child that is too high ends the loop |
| C138 | Model/VirtualBases: the destructor of a class without its virtual bases, and the order of the virtual bases | the virtual bases listed depth first come after those they have themselves; the first of each name keep that order |
| C139 | Model/ViewsLive: views over numbered collections in any state, the loops with any body | induction over the number of tuples left, with the sizes as invariant |
| C140 | Model/CompareCalls: the comparison functions over operators with any effects | induction over trees and lists; a list of questions asked up to the first answer of a given kind |
| C141 | Model/TreeIterAlloc: the vectors of iterators and indices with their buffers, in the memory of C132 | induction over the index; every push_back either keeps or exchanges the buffer |
| C142 | Model/MakeString: the loop of C23 with the states of the va_list variables and the memory of the strings | induction over the iterations: each ends like that of C23 or with bad_alloc, with cur_args started and only the memory of ret in use |
| C143 | Model/VisitRefs: overload resolution for several arguments with reference bindings, partial ordering of templates; variants with the values after the call | asymmetry of the order of functors, induction over the arguments; equality with the models of C116 and C125 |
| C144 | Model/TreeNowhere: the default constructor; the operations of Model/Tree and Model/TreeMemory | an iterator at a position has at least one level; evaluation for empty vectors |
| C145 | Model/ViewsNodes: collections as sequences of elements with identities in any state, iterators as elements, the loops with any body | induction over the elements left, with what is left of the collection as invariant |
| C146 | Model/StreamFail: streams with buffer, state and a device that fails as planned; log, logcat and assert_always on them | an invariant of output operations that is closed under sequences |
| C147 | Model/StreamFormat: streams with a format, printing of texts, integers and manipulators | induction over the arguments |
| C148 | Model/StreamTypes: `operator<<` of version_duplet, flags and span on the streams of Model/StreamFormat, and `cat` | induction over the arguments; `std::to_chars` and the digits of the stream agree |

Not expressible in the model (no entry in the list): overload resolution that only accepts or
rejects programs at compile time, terminal detection (`isatty`), the console.

## Trusted base

* Lean 4.33.0's kernel. `vcheck` replays every module through it. No `sorry`, no added axiom, no
  `native_decide`/`bv_decide`, no `implemented_by`/`unsafe`. `decide` is only used on closed statements over a whole
  finite domain (a table, all enumerators, all bytes) or in examples.
* Axioms: only `propext`, `Quot.sound` and `Classical.choice`. `AXIOMS.md` lists them for each theorem named in
  `MANIFEST.json`.
* The definitions in `Core.lean`, `Model/` and `Spec/`: that the model says what the cited lines of C++ say, and
  that the specifications say what the English says. The model was written by hand from the text of the sources; there
  is no extraction. Every definition cites the lines it models; simplifications are stated there. As a check, the
  repository's unit tests are evaluated on the model in `Conformance/`: the model gives every expected result.
* The C++ language and library rules built into the model: integer promotion and wrap-around, `std::string_view`,
  `std::vector`, `std::list`, `std::map`, `std::bitset`, `std::function`, `std::shared_ptr`, `std::unique_ptr`,
  `std::nested_exception`, `std::to_chars`/`std::from_chars` for integers, `vsnprintf` (by its contract),
  `std::atomic_flag` acquire/release (message-passing views), C locale `isspace`.
* Memory allocation is assumed to succeed (no `std::bad_alloc`) unless said otherwise (C93, C95, C132, C133, C135, C141, C142).

## Which parts of the code are modelled

| source | modelled | not modelled |
|--------|----------|--------------|
| base64.cpp/hpp | all | |
| debug.cpp/hpp | `assert_always`, all `assert` overloads and the choice among them (Model/AssertOverloads), `source_location`, `log_debug`, `logcat_debug`, `run_debug`, `demangle`; `assert_always` on Android (C76), with streams that fail (C146) or have another format (C147) | the limit of the length of messages on Android |
| deserializer.cpp/hpp | all | |
| destructable.hpp | all, with the rules for the destruction of objects (C129), with virtual bases (C138) | exceptions of destructors |
| enum_array.hpp, enum_iterable.hpp | all that compiles | reverse iteration (does not compile, finding 11) |
| exception.cpp/hpp | all | type names are taken as given strings |
| flags.hpp | all | |
| linq.hpp | all; with memory running out for vectors and functions that take constant references (C135) | |
| log.cpp/hpp | `log`, also on Android (C77), `logcat`, from several threads (C96), with streams that fail (C146) or have another format (C147) | the limit of the length of messages on Android |
| math.hpp | all, for integer types, `float`, `double` and `long double` (80 bits, binary128, or the same as `double`), also with excess precision of intermediate results (C130) | the double-double `long double` of PowerPC |
| shared.hpp, shared_ref.hpp, unique_ref.hpp | all operations (`make_weak_from` included), as an ownership heap; the comparison operators and sets of references (C127); the counters with any number of threads (C101) | how `std::shared_ptr` makes its counter operations atomic |
| signal.hpp | all, implicit copying and failing requests for memory (C133) included | |
| sort.hpp | C++17 `quick_sort`; with throwing elements and counted copies (C134) | the C++20 branch is `std::sort`; destructors that throw |
| span.hpp | all member functions and the free functions; which constructor a conversion means and whether it compiles (Model/SpanConv) | `std::span`, for which the header has a branch that is never taken (finding 50) |
| spin_lock.hpp | all | |
| string.cpp/hpp | all, floating-point conversions included; `split`, `join` and `trim` for any character type, given the function that classifies whitespace; `make_string` with failing requests for memory and its `va_list` variables | which wide characters the locale counts as whitespace |
| src_deps/fast_float/fast_float.h | everything `from_chars` reaches for `float` and `double` with `char` input on every platform the preprocessor distinguishes (`Model/Platform.lean`: 32- or 64-bit limbs, generic or intrinsic `umul128` and `leading_zeroes`, byte order, `__builtin_add_overflow`, `FLT_EVAL_METHOD`): `parse_number_string`, `parse_infnan`, `compute_float`, `compute_error`, `stackvec`/`bigint`, `digit_comp`, `from_chars_advanced` | the SIMD variants of the digit loops (they exist for `char16_t` only and are never reached with `char`), the json and Fortran options, other character types, `float16`/`bfloat16` |
| time.cpp/hpp | `get_ticks_ms` over an abstract steady clock | the clock |
| tree.hpp | all, the choice among constructors for braced lists (C131) and failing requests for memory (C95, C132, C141) included; assignment with nodes at addresses (C136); the depth of nested calls (C137); comparisons that throw (C140) | |
| type_traits.hpp | `uint_size`, `int_size`, `remove_const_pointer`, `remove_const_reference`, `is_type_defined`, `type_or_void`, `is_specialization_of`, `is_scoped_enum`, the mask constants | |
| unicode.cpp/hpp | all | |
| utility.hpp | all | `is_terminal_*` |
| variant.hpp | `index_of`; `overloaded` with `std::visit` of one variant (C116) and of several (C125, with all kinds of references C143) | |
| version.hpp | `version_duplet`, printing with any base and width (C148) | `version_triplet::from` is declared but not defined |
| views.hpp | all; views that are kept while collections change (C139), also loops whose bodies insert or erase elements of lists (C145) | such bodies with other collections |
| config.hpp | Model/Preprocessor, Model/Config: all directives | `#pragma warning`, the two headers of Apple |
| macros.hpp | Model/Macros: `UTKI_GET_MACRO`, with `ASSERT` of debug.hpp | |
| windows.hpp | Model/Windows: all directives | |
| types.hpp, util.hpp | nothing (they only include other headers) | |

## Findings about the code

Behaviour that contradicts, or narrows, what a user would expect; each is a theorem or is built into the statement of
the property named.

1. `ends_with` compiled as C++17 compares with the *first* occurrence: `ends_with("abab", "ab")` is false (C21).
2. `signal::emit` moves by-value arguments into the first callback; later ones get moved-from values (C57). Callbacks connected
   during an emission are called in it, and a callback that disconnects itself makes `emit` undefined (C56).
3. `word_wrap` can divide a word that would fit a line (C28). A word that would exactly fill the line is moved to
   the next one unless it is the last one (C83).
4. `sort` does not terminate for comparators like `<=` (C46).
5. `make_indentation` computes `depth * size` in 32 bits and wraps (C22).
6. `current_exception_to_string` of an exception thrown by `utki::throw_with_nested` prints only its type; `exception::to_string`
   ignores the indentation; a null nested pointer terminates the program (C64).
7. tree: `--` at `begin()`, `make_iterator({})` and `at_level` outside the path are traps (C38, C39, C43).
8. `split(string_view)` calls `std::isspace` with possibly negative `char`: undefined for non-ASCII text where `char` is signed (C18).
9. flags: an enumerator outside the enum aborts in debug and is ignored in release by `set`; reading one is undefined (C54).
10. singleton: a failed second construction keeps the first; a derived constructor that throws releases the instance (C61).
11. `enum_iterable::crbegin` names an undeclared type and `rbegin` cannot be instantiated; `reverse` of a reverse view does not compile.
12. `zip` compares only the first iterator and fixes the length when the view is made (C51).
13. `flip_map` keeps the smallest key among those with equal value (C66).
14. `read_number<unsigned>` of a decimal zero printed by `to_string` and followed by `x1` reads a hexadecimal literal (C35: "text that does not continue the literal").
15. `pow2<uint16_t>` overflows `int` above 46340 (C72).
16. An assertion printer that throws escapes without a message or an abort (C76).
17. `linq(rvalue).where` with a by-value predicate leaves moved-from elements (C47).
18. `linq` `where`/`group_by`/`order_by` do not compile for scalar value types.
19. Tick differences are right only up to 2^32-1 ms (C73).
20. Moved-from `shared_ref`/`unique_ref` are null: `get` aborts in debug and is undefined in release (C62, C63); cyclic references leak.
21. `make_string`: text that grows between the two `vsnprintf` calls aborts debug builds and is retried in release (C23).
22. base64: lengths 1 modulo 4 and non-ASCII characters are undefined behaviour (C08).
23. `from_chars`: exponents above 2^28 are not collected. A text of 2.7 GB that denotes 1 is converted to 0 (C79, `C79_limit_needed`); below
    2^28 - 1000 digits this is not observable.
24. `chars_format::hex` does not read hexadecimal numbers but decimal numbers without exponent (C78).
25. `from_chars(float|double)` stores infinity or zero when it reports `result_out_of_range`, unlike `std::from_chars` and unlike the
    `long double` overload, which store nothing (C79, C80).
26. `read_number` returns 0 for numbers that are too large (C82).
27. fast_float's table `max_mantissa` for `double` leaves out 5^14: all entries from index 14 on are too small by a factor of 5. This only
    makes the fast path be taken less often when the rounding mode is not to-nearest; results are right (C79).
28. `nan` and `inf` at the beginning of a word are read as numbers: `read_number<double>` of `infix` is infinity and leaves `ix` (C81, C82).
29. `deg_to_rad` multiplies before it divides: from about 0.57e308 degrees on the result is infinite, although the exact result is representable;
    likewise `rad_to_deg` from the limit divided by 180 on (C85).
30. `deg_to_rad` and `rad_to_deg` accept integer types and then take pi to be 3; with `int8_t` even the divisor 180 becomes -76 (C85).
31. `sign` of a floating-point not-a-number is 1 (C86).
32. `utki::sort`, described as a drop-in replacement for `std::sort`, makes n^2 + n - 2 comparisons in the worst case (C87).
33. `remove_const_reference`, described as a drop-in replacement for `std::remove_cvref`, keeps `volatile` (C89).
34. `deg_to_rad<long double>` and `rad_to_deg<long double>` are wrong by a part of about 2^-54.5, which is 700 units of the 80-bit format, because `pi` is
    a `double` (C85, `C85_deg_to_rad_long`).
35. `signal` can be copied, but the callbacks of a copy cannot be disconnected, so a debug build aborts when the copy is destroyed; moving a signal
    copies it too (C92, `C92_copied_stay`).
36. `spin_lock` is not fair: a thread can wait for ever although the scheduler is fair and every holder releases the lock (C59,
    `C59_starvation_possible`).
37. `what()` of a stacked exception frees the text returned by an earlier call, although it is const and `std::exception` promises that the text stays
    (C93, `C93_wrong`).
38. Two threads that handle the same stacked exception, as rethrown from one `std::exception_ptr`, race in `what()` (C93, `C93_threads_wrong`).
39. The static pointer of `singleton` does destroy the object, although the comment beside it says that this is not used: `std::exit` while the documented
    variable of `main` exists deletes an object not made by `new`, and so does the end of the process for a singleton with static storage duration
    that was made before the pointer (C94).
40. `++` and `--` of traversal iterators give no exception guarantee: if memory runs out between the two calls of `push_back`, the iterator is left broken
    (C95, `C95_broken`).
41. `logcat` is described as concatenating its arguments and printing them, but it prints them one by one: messages of different threads mix
    (C96, `C96_wrong`).
42. On Android `log` cuts the text at the first NUL character, and writes nothing of it if the function throws; elsewhere what was written before is printed
    (C77, `C77_android`).
43. tree.hpp says that `insert` and `erase` invalidate all iterators. In fact only those are invalid that lead through the changed list at or after the change
    (or at all after a reallocation); an invalid one can still refer to its node, because only its outer levels dangle, and `++` is undefined only once it
    leaves the list (C98, `C98_insert_deep`). The end iterator dangles when a root is erased, so that a loop has to call `end()` again (C99).
44. `insert` at the iterator returned by `erase` does not undo the `erase` of a last child: the subtree ends up on a higher level (C103, `C103_erase_insert`).
45. `word_wrap` keeps spaces at the end of lines that end with a newline in the text, also a line of nothing but spaces, but removes them at the end of the
    text; so text that is wrapped again can lose its last line (C102, `C102_spaces_at_end`).
46. utki::sort, meant for evaluation at compile time too, calls itself to a depth equal to the number of elements for some orders (C108_attained), which exceeds the usual limit of 512 nested constexpr evaluations for arrays of a few hundred different elements. The larger part could be handled by the loop instead of a call.
47. The constructor of `singleton` looks whether an object exists and then stores the address; two threads that do this at the same time both pass the check, and `instance().reset(this)` of the second deletes the object of the first, which the first thread still owns (C109_wrong). The comments call is_created() not thread safe, but say nothing of this about the constructor, the destructor and inst().
48. `word_wrap` with a greater width can give more lines, if the text has several spaces one after the other (C112, `C112_double_spaces`): `"a   aa"` gives two lines with width 2 and three with width 3.
49. config.hpp 127-135: `CFG_COMPILER_MSVC_TOOLS_V` is too small by one for all compilers of Visual Studio 2017 before 15.9 (`_MSC_VER` 1910 to 1915) and of 2019 before 16.10 (1920 to 1928): the numbers of the last versions are used as the limits. With the latter `index_of` for variants, variant.hpp 50, is missing although it is meant to be there, and debug.cpp 71 takes them for older ones (`C119_tools_refuted`).
50. config.hpp 165-175: `CFG_CPP` is never more than 20, but span.hpp 47 and 58 ask for `CFG_CPP >= 26`, which is false with every compiler and standard (`C119_standard_refuted`).
51. config.hpp 190-277: with Clang, except Emscripten, `CFG_CPU` is always `CFG_CPU_UNKNOWN` and `CFG_CPU_BITS` is 0, although Clang has the same macros as GCC; so they are with Microsoft's compiler for ARM (`C119_cpu_refuted`). `CFG_CPU_VERSION` is 0 with GCC for ARM when it tells the version by another macro, such as `__ARM_ARCH_7EM__` or `__ARM_ARCH_8A__`, and is not defined with Emscripten (`C119_cpu_version_refuted`).
52. config.hpp 318-321: on a little-endian processor with the words of floating-point numbers in the opposite order `CFG_ENDIANNESS` is `CFG_ENDIANNESS_BIG` (`C119_endianness_refuted`).
53. debug.hpp 517-530: `ASSERT(x)` is a statement with its own semicolon in a debug build and nothing in a release build (`C121_assert`). `if (a) ASSERT(b); else …` does not compile in a debug build, and in `if (a) ASSERT(b) f();` the call of `f` depends on `a` only in a release build.
54. debug.hpp 530: a message function that captures several variables, `ASSERT(p, [a, b](auto& o) {…})`, counts as three arguments and does not compile (`C121_more`); `[&]` and captures in parentheses do.
55. debug.hpp 372-406: a function, or a pointer to one, as the condition of `utki::assert` means the overload for pointers, so it is not called, and the assertion always holds (`C122_condition_refuted`); the same for `std::function<int()>`, say. A lambda expression that captures nothing does not compile, because it converts to `bool` as well. An empty `std::function<bool()>` throws `std::bad_function_call` although there are overloads to check for empty functions (477-511) (`C122_traps`).
56. span.hpp 195-216, 272-297: the constructors from `std::basic_string&` and from pointers to characters do not depend on the type of the elements of the span. `std::is_convertible_v<char*, span<double>>` is true, and `make_string_view(s)`, `make_string(s)` and `utf8_iterator(s)` for a `std::string s` that is not const are ambiguous, as is `make_string_view("text")` (`C123_convertible`, `C123_make_string_view`).
57. linq.hpp 86-89, 172-177, 203-205: an aggregator made from an rvalue can be named and used twice, without a diagnostic, but `get` and `order_by` leave it empty and `where` and `group_by` leave moved-from elements in it, which the next query sees (`C124_owned_again`).
58. singleton.hpp 150-178: on Windows (for example with MinGW; MSVC is refused), with hidden visibility, or in libraries loaded with `dlopen` without `RTLD_GLOBAL` by compilers that do not make unique symbols, `singleton` gives one object per module, not one per process (`C128_separate`, `C128_windows`, `C128_hidden`, `C128_local`); the makefile of tests/singleton_over_shared_library says that the test fails on Windows.
59. tree.hpp 93-104: the constructors from a list of children do not initialize `value`. For scalars it is indeterminate (the documentation says that it is made by the default constructor), and lists nested in lists copy it, which is undefined (`C131_scalars`, `C131_compare`); the unit test tree_structure_construction does so.
60. tree.hpp 84-124: `tree<std::string>{"a", {...}}` is a node with the value "a", `tree<std::string>{std::string("a"), {...}}` and `tree<int>{1, {...}}` are nodes with an own default (or indeterminate) value and two children (`C131_value_or_child`); `tree{v}` is a parent of `v`, `tree(v)` a leaf (`C131_one_value`); `tree{t}` is a copy or a parent of `t`, depending on the compiler (`C131_one_tree`).
61. signal.hpp: if memory runs out while a signal is assigned to another, the target is left with the first callbacks of the source and the rest of its own (`C133_assign_mixed`).
62. sort.hpp: an exception thrown by a move assignment of an element during `sort` loses an element: it is in the temporary of `iter_swap`, which is destroyed (`C134_can_lose`). Every call on two or more elements copies the pivot five times, since the function objects given to `partition` and `find_if_not` hold copies of it (`C134_copies`); elements that can only be moved do not compile.
63. linq.hpp 148-150, 172-177: if memory runs out during `where` or `group_by` on an rvalue, the elements that had been moved to the result are destroyed with it (example in Props/LinqAlloc); only lvalues are safe.
64. tree.hpp 74, 77: `t = t.children[0]`, which seems natural for going down a tree, reads nodes after they have been destroyed as soon as the vector of children has room for the new children (`C136_own_undefined`); with libc++ it and `t = std::move(t.children[0])` always do if the part has children. `tree c(t.children[0]); t = std::move(c);` is always right (`C136_via_copy`).
65. tree.hpp 73, 79, 142-145: copying, comparing and even destroying a tree is recursive, so that a tree with very many levels (a list made of trees) ends the program by a stack overflow (`C137_copy`, `C137_destroy`, `C137_shapes`). Traversal is not recursive; a deep tree can be destroyed safely by erasing nodes from the last one backwards.
66. A zip view stores the least size when it is made: elements appended later are not visited, and if a collection has shrunk since then iterating over the view is undefined, whereas skip_front and reverse follow the collection (C139).
67. `operator==` of trees is `noexcept`: an exception thrown by the comparison of values terminates the program (C140).
68. string.cpp 120-131: when `make_string_va_list` throws (`vsnprintf` reports an error, or memory runs out) `make_string` does not call `va_end(args)`, which the C standard (7.16.1) leaves undefined; `make_string_va_list` itself guards its list by `scope_exit` (`C142_not_ended`, `C142_error`, `C142_va_list`).
69. debug.cpp 94-99: a program that called `std::cerr.exceptions(...)` gets `std::ios_base::failure` from a failed assertion instead of an abort if `std::cerr` fails (`C146_assert_throws`).
70. log.cpp 51-60: manipulators passed to `logcat` (`std::hex`) stay in force for all later output to `std::cout`, except on Android where each call uses a new stream (`C147_kept`, `C147_android`, `C147_differs`).
71. version.hpp 59-62: `std::setw` applies only to the major number of a printed version and `std::hex` to both, so that `16.0` is printed as `10.0` (`C148_version_columns`, `C148_version_base`).
