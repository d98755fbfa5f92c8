# property -> (status, note)
STATUS = {
 'C01': ('proved', 'generic widths and the 16/32/64-bit wrappers'),
 'C02': ('proved', 'plus injectivity'),
 'C03': ('proved', 'layout, frame and the out-of-room case'),
 'C04': ('proved', 'a float is its 32-bit representation; reinterpret_cast is taken as a bit copy'),
 'C05': ('proved', 'refinement of every call history to a cursor over the remaining bytes; objects smaller than SIZE_MAX bytes'),
 'C06': ('proved', ''),
 'C18': ('proved', 'bytes 0x80-0xfe with signed char are outside std::isspace\'s domain (shown as undefined behaviour); "C" locale'),
 'C21': ('partial', 'proved for the C++20 build; the C++17 build is refuted (C21_ends_with_cpp17_wrong) and characterised exactly'),
 'C22': ('partial', 'holds while depth*step fits in 32 bits; refuted beyond (C22_wrong), exact modular statement proved'),
 'C23': ('proved', 'vsnprintf is an oracle that fails or formats the same text each time'),
 'C27': ('proved', 'newline-separated paragraphs; width 0 separately'),
 'C28': ('partial', 'refuted in general (C28_wrong). For every text: a word that fits is divided only if the line it begins on has nothing but spaces before it; for single-spaced text with words shorter than the width no word is divided'),
 'C29': ('proved', 'any history of calls in debug and release builds, floating-point numbers included, in any rounding mode'),
 'C30': ('proved', ''),
 'C31': ('proved', ''),
 'C32': ('proved', ''),
 'C33': ('proved', 'the 0x / 0b prefix counts only if a digit of that base follows; a leading 0 followed by a non octal digit is read as decimal'),
 'C34': ('proved', ''),
 'C35': ('proved', 'for decimal zero the following text must not turn it into a hexadecimal or binary literal'),
 'C36': ('proved', 'std::to_chars is modelled by its specification'),
 'C37': ('proved', 'Iterators obtained from the API are shown to be at a position of the pre-order (At); the loop theorem runs begin/!=/index/*/++ in debug and release builds.'),
 'C38': ('proved', '-- at begin() is not covered (it empties the stack); the reverse loop models std::reverse_iterator over the base iterator.'),
 'C39': ('proved', 'make_iterator({}) returns an iterator with empty stack although is_valid({}) is false; operator[] with an invalid path: out_of_range in release, abort in debug, undefined for the empty path in release.'),
 'C40': ('proved', ''),
 'C41': ('proved', 'The forest afterwards is given by its outline (depth, value in pre-order), proved to determine the forest.'),
 'C42': ('proved', 'The node at the returned position is the one that followed the subtree, by the outline equation; at the end the iterator equals end().'),
 'C43': ('proved', 'at_level beyond the depth terminates the program (noexcept), although documented to throw.'),
 'C44': ('proved', 'Also: for lawful value equality == is equality of trees.'),
 'C45': ('proved', 'Comparator is a pure strict weak order.'),
 'C46': ('proved', "For comparators with state, exceptions or undefined behaviour of their own: the outcome is normal, divergence or the comparator's own abnormal outcome; elements outside the range unchanged, range permuted. Termination proved for irreflexive comparators; divergence proved for two equal elements and a reflexive comparator."),
 'C47': ('proved', 'select yields the mapped elements in order; where yields the accepted elements in order for predicates that take the element by const reference, and for every predicate on an lvalue. C47_where_by_value shows the limit: a by-value predicate applied to an rvalue collection moves the elements out before they are collected.'),
 'C48': ('proved', 'Grouping: keys, order inside the groups and the partition of the elements.'),
 'C49': ('proved', 'order_by yields a sorted permutation of the source for every strict weak order.'),
 'C50': ('proved', 'Chains of operations: lvalue source unchanged, result is the composition, no copies on the rvalue path.'),
 'C51': ('proved', 'zip view: pairs by position up to the shortest container, assignment through the pair writes the containers.'),
 'C52': ('proved', 'reverse and skip_front visit the stated elements in the stated order.'),
 'C53': ('proved', 'set/get/all/none/operators modelled on bit lists of the underlying word'),
 'C54': ('proved', 'histories of set/clear/toggle; bad enumerators: abort in debug, ignored in release'),
 'C55': ('proved', 'connect/disconnect/size/empty over arbitrary histories with callbacks that use the signal'),
 'C56': ('proved', 'calls of one emission, with callbacks that connect and disconnect; self-disconnect is shown undefined (C56_self_disconnect)'),
 'C57': ('partial', 'proved for arguments that are unchanged by being moved from (C57_partial) and for the first callback; false for by-value movable arguments, C57_refuted gives the witness'),
 'C58': ('proved', 'interleavings of any number of threads with release/acquire views; modification-order simplification stated in Model/SpinLock'),
 'C59': ('proved', 'Some waiting thread always gets the lock (C59_live); that a given one does is refuted by a fair execution (C59_starvation_possible).'),
 'C60': ('proved', 'programs with nested scopes, exceptions, loops, releases; functions are programs of the same kind; the object is not available to its own function while that runs'),
 'C61': ('proved', 'histories of constructions and destructions of one singleton class'),
 'C62': ('proved', 'Reference-count invariant over all histories of make_shared, make_shared_from, copy, move, assignment, conversion, pointer round trips, weak pointers, casts and destruction, with objects holding references to each other. References counted exactly; cycles are allowed and are not destroyed. One thread.'),
 'C63': ('proved', 'Single-owner invariant over all histories of make_unique, moves, assignment, conversion, to_unique_ptr, construction from unique_ptr and destruction, with objects owning each other.'),
 'C64': ('proved', 'Restated exactly; C64_current_stacked and C64_utki_not_indented state the two places where the report is less than one would expect.'),
 'C65': ('proved', 'next/prev give the position n steps away; outside the range it is reported as undefined behaviour.'),
 'C66': ('proved', 'total orders on keys and values; std::map modelled by its element sequence'),
 'C67': ('proved', 'sequences, std::map, std::unordered_map'),
 'C68': ('proved', 'includes the debug-assert behaviour of bad subspans and overlaps()'),
 'C69': ('proved', ''),
 'C70': ('proved', 'enum_iterable visits each enumerator once in order; enum_array is an array indexed by enumerators over any history of writes.'),
 'C71': ('proved', ''),
 'C72': ('proved', 'All integer types; uint16_t overflow through promotion to int is stated exactly.'),
 'C73': ('proved', 'C73_tight shows the bound cannot be relaxed to 2^32 ms.'),
 'C74': ('proved', 'Types are numbers; uniqueness of the alternative is part of the statement.'),
 'C75': ('proved', ''),
 'C76': ('proved', "The user's print function throwing is covered by C76_printer_throws."),
 'C77': ('proved', ''),
 'C78': ('proved', 'The floating-point unit is any one that obeys IEEE-754 in some rounding mode (Spec/FloatEnv.lean); memory safety is the absence of the undefined-behaviour outcome.'),
 'C79': ('proved', 'The limit on the number of digits is part of the property; C79_limit_needed shows that it cannot be dropped.'),
 'C80': ('proved', ''),
 'C81': ('proved', ''),
 'C82': ('proved', ''),
 'C84': ('proved', 'A platform is any combination of answers to the questions the preprocessor is asked (Model/Platform.lean), also combinations no real target has; the floating-point unit is any one that obeys the laws of Spec/FloatEnv.lean.'),
 'C85': ('proved', 'Intermediate results are assumed to have the type of the operands (FLT_EVAL_METHOD 0). Overflow of the intermediate product is described exactly, not hidden.'),
 'C86': ('proved', 'Intermediate results are assumed to have the type of the operands (FLT_EVAL_METHOD 0).'),
 'C87': ('proved', 'The C++17 implementation; with C++20 utki::sort is std::sort. Moves of elements are not counted.'),
 'C88': ('proved', 'The demangler is any function that obeys the ABI contract.'),
 'C89': ('proved', 'Templates with non-type parameters, member pointers and function signatures are not in the type language.'),
 'C90': ('proved', 'The key function of order_by is called from within std::sort and is not included. Copying and moving elements is taken not to throw; a parameter by value is initialised before the function runs.'),
 'C91': ('proved', 'Of functions that contain assertions all modelled ones are covered. log_debug, logcat_debug, run_debug and assertions given a checker or printer with effects differ between the builds by design (C76); they are not included.'),
 'C83': ('partial', 'refuted in general (C83_wrong): a word that would exactly fill the line is moved to the next line unless it ends the text or the line of the text. Proved for every text: the word would at least have reached the end of the line'),
 'C92': ('proved', 'Callbacks that use signals while they are called are in C55-C57 for one signal, and in C118 for several.'),
 'C93': ('partial', 'refuted in general (C93_wrong, C93_threads_wrong): a second call of what() frees the text of the first one, and concurrent calls on the same object race. Proved for every history in which that object is not asked again, and for threads with exception objects of their own.'),
 'C94': ('partial', 'refuted in general (C94_end_wrong, C94_documented_use). Which cases are harmless is stated by Spec.SafeEnd, and proved for every history; all other cases are proved to be undefined or to abort.'),
 'C95': ('partial', 'refuted in general (C95_next_wrong, C95_prev_wrong, C95_release_wrong): a failure of the second of the two requests for a level leaves the iterator broken (C95_broken). All other cases are proved.'),
 'C96': ('partial', 'refuted in general (C96_wrong): the arguments of logcat of different threads mix. Proved: order and completeness for each thread, whole messages for single arguments and under a common lock.'),
 'C97': ('proved', 'C97_same ties the counting functions to those of C37 and C38 in every state.'),
 'C98': ('proved', 'pointers and iterators are identities of places in vectors, which follow the validity rules of std::vector; stale ones are undefined to use.'),
 'C99': ('proved', 'on the model of C98, so that the use of an invalid iterator in the loop would be undefined.'),
 'C100': ('proved', 'the reading loop is the client\'s; floating-point literals of fewer than 2^28 - 1000 digits, out of range ones are read as 0 (C82).'),
 'C101': ('proved', 'each operation on the counter is one atomic step, as in std::shared_ptr, whose implementation is trusted; references travel between threads by means that synchronise.'),
 'C102': ('proved', 'lines put together with one newline between neighbours; C102_spaces_at_end shows that the exception occurs.'),
 'C103': ('proved', 'iterators are compared completely, with all their levels.'),
 'C104': ('proved', 'The text is any literal whose value is a nearest number of the given number of digits; how a program produces it (printf) is not modelled. Assumes IEEE arithmetic of the processor for the fast path, as C79.'),
 'C105': ('proved', 'signedVal takes infinity for the number after the largest one.'),
 'C106': ('proved', ''),
 'C107': ('proved', ''),
 'C108': ('proved', 'Depth counts nested calls of quick_sort; what a call costs on the stack, and the limit of nested constexpr evaluations of a compiler, are not modelled.'),
 'C109': ('proved', 'The last sentence is C109_wrong and C109_wrong_inst. Accesses to the pointer are interleaved; in a program with a data race C++ defines nothing, so the two refutations show one of the possible outcomes. Locks appear as the events released and acquired; that a lock is held by one thread at a time is the hypothesis Locked of C109_locked. C61 is the same class with one thread.'),
 'C110': ('proved', ''),
 'C111': ('proved', 'Of other sorting functions only the contract is used: a sorted permutation.'),
 'C112': ('proved', 'Refuted for texts with spaces one after the other (C112_double_spaces).'),
 'C113': ('proved', ''),
 'C114': ('proved', 'memory model as in C58; C114_greater_needed shows that more progress than C114_live cannot be promised'),
 'C115': ('proved', 'elements are assigned as a whole; containers keep their size (a span into a vector that grew is invalid by the rules of std::vector)'),
 'C116': ('proved', 'overload resolution is a model of the language rules for one argument; simplifications in Model/Overloaded.lean'),
 'C117': ('proved', ''),
 'C118': ('proved', 'Signals are not moved or copied while one of their callbacks runs.'),
 'C119': ('partial', "The system, the name of the system, the compiler, its version with GCC, the deployment targets and DLLEXPORT are right. Refuted, with the part that holds proved: the version of Microsoft's tools is one too small for _MSC_VER 1910 to 1915 and 1920 to 1928; CFG_CPP is never more than 20; with Clang, and with Microsoft's compiler for ARM, the processor is unknown; CFG_CPU_VERSION is 0 for ARM versions told by other macros and not defined with Emscripten; the byte order is told to be big if only the words of floating-point numbers are in that order. Not stated: CFG_CPU_ARM_THUMB_VERSION. Macros with parameters, and numbers reached through more than one other macro, do not occur among the predefined macros that are used."),
 'C120': ('proved', 'The two macros are taken to be undefined, empty or a number other than 1234567890 before; a program that defines one of them as that number finds it undefined. Macros min, max and DELETE the program itself has defined before are removed, too.'),
 'C121': ('proved', 'The tokens of the arguments are not names of macros. With more than ten arguments it is the eleventh argument applied to all of them.'),
 'C122': ('partial', 'False for functions and pointers to functions, and for std::function with another signature than bool(), which are not called; for an empty std::function<bool()> and nullptr, which throw std::bad_function_call; lambda expressions without captures and std::unique_ptr with its own deleter do not compile (C122_traps, C122_condition_refuted). Proved for all other conditions. Generic lambda expressions and the literal 0 as the place are not modelled.'),
 'C123': ('proved', 'The class span of the library, which is used whenever CFG_CPP is below 26, that is always (finding 50). Arrays of const elements and strings of types that are not characters are excepted (C123_made).'),
 'C124': ('proved', 'Functions that do not change the variable during the chain; copies of aggregators are not modelled.'),
 'C125': ('proved', 'Parameters by value or const reference (others with one variant: C116).'),
 'C126': ('proved', 'One thread; on threads see C101.'),
 'C127': ('proved', 'The search in the set is modelled in order, not down the tree.'),
 'C128': ('proved', 'The rules of the dynamic linkers are part of the trusted base.'),
 'C129': ('proved', 'No virtual bases; destructors do not throw.'),
 'C130': ('proved', 'Compilers that do not round in casts and returns are not modelled.'),
 'C131': ('proved', 'The choice among constructors is modelled by the rules of the language for the kinds of expressions named; other conversions (like narrowing, or iterator pairs) are not.'),
 'C132': ('proved', 'For values that are moved without requesting memory, as those of the standard library are.'),
 'C133': ('proved', 'For function objects that std::function moves without requesting memory; std::list assigns element by element, as the implementations do.'),
 'C134': ('proved', 'C++17 implementation. A move that throws is assumed to leave its source as it was. That an element can be lost is shown by C134_can_lose.'),
 'C135': ('proved', 'The collection is a vector, the functions take constant references, and moving an element or a vector requests no memory.'),
 'C136': ('partial', 'False in general: `t = t.children[0]` reads destroyed nodes (C136_own_undefined). Proved for trees apart from each other (C136_assign_partial, C136_move), for the cases in which own parts can be assigned (C136_assign_own_grow, C136_move_own), and by way of a copy without condition (C136_via_copy). Requests for memory succeed and values do not throw.'),
 'C137': ('proved', 'The calls the vector makes between two calls of tree are counted with them. Traversal iterators move in loops, without nested calls (Model/Tree).'),
 'C138': ('proved', 'Classes with the same name in an object are the same (WellNamed). Exceptions of destructors are not represented.'),
 'C139': ('proved', 'Of the state of the program only the sizes of the collections matter to views; bodies that insert or erase elements are not covered.'),
 'C140': ('proved', 'Operators that change the elements being compared are not covered; std::equal, std::find and std::lexicographical_compare ask as the standard and the usual implementations do.'),
 'C141': ('proved', 'The container of children is std::vector.'),
 'C142': ('partial', 'False in general: when make_string throws, its va_list is never ended, which the C standard leaves undefined (C142_not_ended, C142_error). Proved in full for make_string_va_list (C142_va_list) and for calls of make_string that return; the rest holds for make_string too. The closure in scope_exit is kept without memory.'),
 'C143': ('proved', 'No alternative is a base class of a parameter type; the variants are different objects; conversions do not change what they convert.'),
 'C144': ('proved', 'at_level of such an iterator terminates, as the function is noexcept.'),
 'C145': ('proved', 'The elements next to each other matter to reverse loops because reverse iterators refer to the element after the one they stand for.'),
 'C146': ('proved', 'C76 and C77 are about streams that do not fail.'),
 'C147': ('proved', 'Modelled formats: base, width, fill character and its side; integers are unsigned.'),
 'C148': ('proved', 'Elements of spans and arguments of cat are texts or unsigned integers; streams do not fail.'),
}
