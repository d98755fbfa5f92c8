#!/usr/bin/env python3
# Generates ../properties.jsonl.  Edit here, then run.
import json, os
P = []
def p(id, title, statement, quantifier, why, anchors):
    P.append(dict(id=id, title=title, statement=statement, quantifier=quantifier, why_tests_cant=why, anchors=anchors))
U='src/utki/'
def a(f,*syms): return [f"{U}{f}: {s}" for s in syms]

p('C01','Integer serialization round-trips',
 'Writing an unsigned integer of any width with serialize_le/serialize_be (and the 16/32/64-bit wrappers) and reading it back from the same address with the matching deserialize function returns the same integer, wherever in the buffer it is written.',
 'all widths n >= 1 bytes, all values of that width, all buffers and offsets with n bytes of room',
 '2^64 values times all buffer positions; a test samples a few.',
 a('utility.hpp','serialize_le','deserialize_le','serialize_be','deserialize_be'))
p('C02','Deserialization loses nothing',
 'Reading n bytes with deserialize_le/_be and writing the result back with the matching serialize function reproduces exactly the same n bytes, so the byte encoding is a bijection.',
 'all n >= 1, all byte strings of length n',
 'All 256^n byte strings cannot be enumerated.',
 a('utility.hpp','serialize_le','deserialize_le','serialize_be','deserialize_be'))
p('C03','Byte order and exact footprint of serialization',
 'serialize_le puts the byte of weight 256^i at offset i, serialize_be puts it at offset n-1-i; the call returns the address n bytes further, and changes no byte outside those n.',
 'all widths, values, buffers and offsets',
 'A stray write or swapped byte for some value or position outside the sample would pass.',
 a('utility.hpp','serialize_le','serialize_be','serialize16le','serialize32le','serialize64le','serialize16be','serialize32be','serialize64be'))
p('C04','Float serialization preserves every bit pattern',
 'serialize_float_le/_be followed by deserialize_float_le/_be returns a float with the identical 32-bit representation, NaN payloads, infinities, denormals and signed zeros included, and the bytes are the IEEE-754 bits in the named byte order.',
 'all 2^32 float representations, all buffers and offsets',
 'All representations in all positions; NaN payloads cannot be compared with ==.',
 a('utility.hpp','serialize_float_le','deserialize_float_le','serialize_float_be','deserialize_float_be'))
p('C05','A deserializer is a bounds-checked cursor',
 'Over any history of read/skip calls, each call that asks for at most the remaining number of bytes returns the decoding of exactly the next bytes and advances by that many; each call that asks for more throws std::invalid_argument and leaves the deserializer unchanged; no byte outside the given span is ever read; size() and empty() always report what is left.',
 'all input buffers, all finite sequences of read_uint8/16/32/64_le/_be, read_float_le/_be, read_string, read_span and skip with all lengths',
 'Histories and lengths are unbounded, including lengths near SIZE_MAX.',
 a('deserializer.cpp','deserializer::read_string','deserializer::read_span','deserializer::read_uint8','deserializer::read_uint16_le','deserializer::read_uint64_be','deserializer::skip')+a('span.hpp','span::subspan'))
p('C06','A deserializer reads back what the serializers wrote',
 'If a record of typed fields (integers of each width and endianness, floats, strings, byte blocks) is written field after field with the utki serialize functions and then read with the corresponding deserializer calls, every call returns the field written and the deserializer ends up empty.',
 'all finite sequences of typed fields and all field values',
 'Unbounded field sequences.',
 a('deserializer.cpp','deserializer')+a('utility.hpp','serialize_le','serialize_be'))
p('C07','base64_decode inverts RFC 4648 encoding',
 'For every byte string, base64_decode of its standard base64 encoding, with or without "=" padding, returns that byte string.',
 'all byte strings of all lengths',
 'Unbounded lengths and all 3-byte groups.',
 a('base64.cpp','base64_decode','base64_decode_quad','decode_table'))
p('C08','base64_decode on arbitrary text: which inputs are safe',
 'base64_decode throws std::invalid_argument exactly when the text ends with "=" and is shorter than four characters; otherwise it never reads outside the text or the table and returns normally, except for text that is not padded and has length 1 modulo 4, or that contains a character outside ASCII where char is signed.',
 'all byte strings used as text, debug and release builds, signed and unsigned char',
 'Memory safety over all malformed inputs.',
 a('base64.cpp','base64_decode','decode_table'))
p('C09','base64_decode of malformed ASCII text is deterministic and bounded',
 'Characters outside the base64 alphabet are decoded as if they were "A"; the result length depends only on the text length and the amount of trailing padding, and never exceeds 3 bytes per 4 characters rounded up.',
 'all ASCII strings for which decoding is safe',
 'All strings of all lengths.',
 a('base64.cpp','base64_decode','base64_decode_quad'))
p('C10','UTF-32 to UTF-8 to UTF-32 round-trips',
 'For every UTF-32 string, to_utf32(to_utf8(s)) is s without its U+0000 characters and without characters above 0x7fffffff; in particular strings without those come back unchanged, through both the span and the NUL-terminated interface.',
 'all UTF-32 strings of all lengths',
 '2^32 characters per position, unbounded length.',
 a('unicode.cpp','to_utf8','to_utf32','utf8_iterator::operator++'))
p('C11','to_utf8 of one character is the standard shortest encoding',
 'to_utf8(c) is a NUL-terminated array whose bytes are the UTF-8 encoding (with the historic 5- and 6-byte forms) of c: the shortest form, lead byte and continuation bytes as the standard prescribes, inside the 7-byte array; above 0x7fffffff it is the empty string.',
 'all 2^32 values of char32_t',
 'All values; boundary errors hide between samples.',
 a('unicode.cpp','to_utf8(char32_t)'))
p('C12','utf8_iterator over a span stays inside the span and terminates',
 'For every byte span, constructing a utf8_iterator and incrementing it any number of times never reads a byte outside the span, and to_utf32 terminates with at most one character per byte; undefined behaviour is confined to lead bytes 0xBE, 0xBF, 0xFE and 0xFF followed by enough bytes (over-wide shift).',
 'all byte sequences, all numbers of increments',
 'All malformed inputs.',
 a('unicode.cpp','utf8_iterator::utf8_iterator','utf8_iterator::operator++','to_utf32(utki::span<const uint8_t>)'))
p('C13','NUL-terminated UTF-8 decoding reads past no terminator of well-formed text',
 'Decoding a NUL-terminated well-formed UTF-8 string with to_utf32(const char*) never reads beyond the terminator and gives the same characters as the span interface.',
 'all well-formed UTF-8 texts',
 'Reads past the end are usually silent; unbounded inputs.',
 a('unicode.cpp','utf8_iterator::utf8_iterator(const char*)','utf8_iterator::operator++')+a('unicode.hpp','to_utf32(const std::string&)'))
p('C14','to_utf32 decodes every well-formed UTF-8 text',
 'For every concatenation of UTF-8 encodings of non-zero characters to_utf32 returns exactly these characters in order; text after an embedded NUL is not decoded.',
 'all well-formed UTF-8 texts, all suffixes after a NUL',
 'Unbounded texts.',
 a('unicode.cpp','to_utf32','utf8_iterator::operator++'))
p('C15','join after split is the identity',
 'join(split(s, d), d) == s.',
 'all strings over any character type, all delimiters',
 'Unbounded strings; leading, trailing and repeated delimiters in all combinations.',
 a('string.hpp','split(std::basic_string_view, element_type)','join'))
p('C16','split yields exactly the delimiter-free fields',
 'split(s, d) never fails, has one more element than s has occurrences of d, and no element contains d.',
 'all strings and delimiters',
 'Unbounded strings.',
 a('string.hpp','split(std::basic_string_view, element_type)'))
p('C17','split after join is the identity',
 'For a non-empty collection of strings none of which contains d, split(join(xs, d), d) == xs; join of an empty collection is the empty string.',
 'all collections of strings, all delimiters',
 'Unbounded collections.',
 a('string.hpp','split(std::basic_string_view, element_type)','join')+a('views.hpp','skip_front'))
p('C18','Whitespace split returns the words',
 'split(s) returns the maximal runs of non-whitespace characters of s in order: every returned word is non-empty and whitespace-free, and s is these words separated (and possibly surrounded) by whitespace.',
 'all strings in the domain of std::isspace',
 'Unbounded strings.',
 a('string.cpp','split(std::string_view)'))
p('C19','trim removes exactly the outer whitespace',
 'trim_front/trim_back/trim return the sub-view of s obtained by removing the longest whitespace prefix/suffix/both; the removed parts are all whitespace and the result neither starts (ends) with whitespace; trimming again changes nothing.',
 'all strings',
 'Unbounded strings.',
 a('string.hpp','trim_front','trim_back','trim'))
p('C20','starts_with decides the prefix relation',
 'starts_with(str, prefix) is true iff str is prefix followed by something.',
 'all pairs of strings, C++17 and C++20 builds',
 'All pairs of strings.',
 a('string.hpp','starts_with'))
p('C21','ends_with decides the suffix relation',
 'ends_with(str, suffix) is true iff str is something followed by suffix.',
 'all pairs of strings, C++17 and C++20 builds',
 'All pairs of strings; repeated occurrences of the suffix.',
 a('string.hpp','ends_with'))
p('C22','make_indentation has depth steps',
 'make_indentation(depth, 0) is depth tabs and make_indentation(depth, size) is depth*size spaces.',
 'all unsigned depth and size',
 '2^64 pairs; the product overflows 32 bits.',
 a('string.cpp','make_indentation'))
p('C23','make_string formats strings of any length',
 'make_string returns exactly the formatted text whatever its length, formats at most twice, never writes outside its buffers, and throws std::logic_error iff vsnprintf reports an error.',
 'all formatted texts (any length, including around the internal 1 KiB guess), all vsnprintf outcomes allowed by the C standard',
 'Lengths are unbounded and the interesting lengths depend on internals.',
 a('string.cpp','make_string_va_list'))
p('C24','word_wrap respects the width',
 'For width > 0 every line returned by word_wrap has at most width characters and contains no newline.',
 'all strings, all widths > 0',
 'Interaction of spaces, newlines and width is unbounded.',
 a('string.cpp','word_wrap'))
p('C25','word_wrap loses only spaces and newlines',
 'The concatenation of the returned lines, spaces and newlines removed, equals the input, spaces and newlines removed: no other character is dropped, duplicated or reordered; and every line is a contiguous piece of the input, in order.',
 'all strings, all widths',
 'Unbounded strings.',
 a('string.cpp','word_wrap'))
p('C26','word_wrap never leaves the string',
 'word_wrap never dereferences an iterator at or beyond the end of the string, never builds a negative-length substring and none of its assertions can fire.',
 'all strings, all widths, debug and release',
 'Memory safety over all inputs.',
 a('string.cpp','word_wrap'))
p('C27','word_wrap leaves fitting text alone',
 'If every newline-separated paragraph fits the width, the result is exactly the paragraphs, except that trailing spaces of the last paragraph are removed (and a last paragraph made only of spaces disappears); width 0 returns the whole text as one line.',
 'all strings and widths such that all paragraphs fit',
 'Unbounded.',
 a('string.cpp','word_wrap'))
p('C28','word_wrap does not break words that fit a line',
 'A maximal run of non-space characters no longer than width is never divided between two lines.',
 'all strings, all widths > 0',
 'Needs all combinations of word lengths, leading spaces and widths.',
 a('string.cpp','word_wrap'))
p('C29','A string_parser only consumes a prefix',
 'Over any history of parser calls the remaining view is always a suffix of the original text, size()/empty() describe it, and the calls never read outside it.',
 'all texts, all finite sequences of string_parser calls with all arguments',
 'Unbounded histories.',
 a('string.cpp','string_parser')+a('string.hpp','string_parser'))
p('C30','Parser reads return the maximal prefix',
 'read_word / read_word_until(c) / read_chars_until(c) return the longest prefix free of whitespace / of whitespace and c / of c and leave the rest; read_chars(n) returns the first min(n, size) characters and leaves the rest.',
 'all texts, all characters c, all n',
 'Unbounded texts.',
 a('string.cpp','string_parser::read_word','string_parser::read_word_until','string_parser::read_chars','string_parser::read_chars_until'))
p('C31','Parser skips',
 'skip_whitespaces drops exactly the longest whitespace prefix; skip_whitespaces_and_comma drops the longest prefix that is whitespace with at most one comma; skip_inclusive_until(c) drops through the first c (all if none); skip_inclusive_until_one_of(cs) drops through the first character of cs and returns it, or NUL and everything if none.',
 'all texts, all characters and character sets',
 'Unbounded texts.',
 a('string.cpp','string_parser::skip_whitespaces','string_parser::skip_whitespaces_and_comma','string_parser::skip_inclusive_until','string_parser::skip_inclusive_until_one_of'))
p('C32','peek and read of characters',
 'peek_char(n) returns the n-th remaining character without changing the parser, read_char returns the first and drops it; both throw std::invalid_argument exactly when that character does not exist and then leave the parser unchanged.',
 'all texts, all n',
 'All n including SIZE_MAX.',
 a('string.cpp','string_parser::peek_char','string_parser::read_char'))
p('C33','Unsigned read_number reads C-style literals',
 'read_number<unsigned> skips whitespace, recognises 0x (hex), 0b (binary), leading 0 (octal) and decimal literals, returns the literal\'s mathematical value and leaves the text after the longest digit run; if the value does not fit it returns 0 and still consumes the digits; it throws std::invalid_argument exactly when, after whitespace, no decimal digit follows.',
 'all texts, all unsigned integer widths',
 'All texts and widths.',
 a('string.hpp','string_parser::read_number','to_int(integer_base)'))
p('C34','Signed read_number reads decimal integers',
 'read_number<signed> skips whitespace, reads an optional "-" and the longest decimal digit run, returns its value, or 0 if it does not fit; throws std::invalid_argument exactly when no such integer follows.',
 'all texts, all signed integer widths',
 'All texts and widths.',
 a('string.hpp','string_parser::read_number'))
p('C35','to_string and read_number are inverse',
 'For every unsigned value and each of the four bases, and every signed value in decimal, read_number applied to to_string(value, base) followed by any text that does not continue the literal returns the value and leaves exactly that text.',
 'all integer widths, all values, all bases, all following texts that do not continue the number',
 '2^64 values times bases times suffixes.',
 a('string.hpp','to_string','string_parser::read_number'))
p('C36','to_string produces the canonical numeral and never overflows its buffer',
 'For every integer of at most 64 bits and every base the result is the optional minus sign, the base prefix (unsigned only) and the positional numeral without superfluous leading zeros; the internal buffer always suffices, so the result is never empty.',
 'all integers of up to 64 bits, all bases',
 '2^64 values.',
 a('string.hpp','to_string'))
p('C37','Tree traversal visits every node once in pre-order',
 'Starting at begin() and incrementing until end(), the iterator dereferences to exactly the nodes of the forest in pre-order, each once; the loop ends after as many steps as there are nodes and no step is undefined.',
 'all forests of any size, depth and fan-out',
 'Unbounded tree shapes.',
 a('tree.hpp','traversal::begin','traversal::end','traversal::iterator_internal::operator++'))
p('C38','Reverse traversal is the exact reverse',
 'Decrementing from end() visits the nodes in reverse pre-order down to begin(); ++ and -- undo each other on every position; rbegin()/rend() iterate the reversed sequence.',
 'all forests, all positions',
 'Unbounded tree shapes.',
 a('tree.hpp','traversal::iterator_internal::operator--','traversal::rbegin','traversal::rend'))
p('C39','Index paths and iterators correspond',
 'make_iterator(it.index()) equals it and index() of make_iterator(path) is path for every node; is_valid(path) is true exactly for the paths of nodes; make_iterator throws std::out_of_range exactly for non-empty paths that leave the tree; operator[] returns the node at the path.',
 'all forests, all index paths of any length',
 'Unbounded paths.',
 a('tree.hpp','traversal::make_iterator_internal','traversal::is_valid','traversal::iterator_internal::index','traversal::operator[]'))
p('C40','Iterator comparison is traversal order',
 'For any two iterators of one forest (nodes or end), a<b holds exactly if a is visited before b, and ==, !=, >, <=, >= agree with it.',
 'all forests, all pairs of positions',
 'All pairs in all trees.',
 a('tree.hpp','traversal::iterator_internal::operator<','traversal::iterator_internal::operator=='))
p('C41','insert and insert_after splice a subtree',
 'insert(i, t) puts the subtree t immediately before i on the same level and returns an iterator to it; insert_after puts it as next sibling; the traversal sequence afterwards is the old one with the pre-order of t inserted at that place, all other nodes untouched.',
 'all forests, all positions (end included for insert), all inserted trees',
 'Unbounded shapes.',
 a('tree.hpp','traversal::insert','traversal::insert_after'))
p('C42','erase removes one subtree and returns the next node',
 'erase(i) removes exactly the subtree at i and returns the iterator to the node that followed that subtree in traversal order, or end(); all other nodes keep their order.',
 'all forests, all node positions',
 'Unbounded shapes; last children at several levels.',
 a('tree.hpp','traversal::erase'))
p('C43','is_last_child, depth and at_level',
 'is_last_child is true exactly for nodes that are last among their siblings (false at end()); depth() is the number of nodes on the path from the root list; at_level(d) is the ancestor at level d.',
 'all forests, all positions, all levels',
 'Unbounded shapes.',
 a('tree.hpp','traversal::iterator_internal::is_last_child','traversal::iterator_internal::depth','traversal::iterator_internal::at_level'))
p('C44','Tree equality is structural',
 'operator==(tree, tree) holds exactly when values and shapes agree everywhere; it is an equivalence if value equality is.',
 'all pairs of trees',
 'Unbounded shapes.',
 a('tree.hpp','tree::operator=='))
p('C45','sort sorts',
 'utki::sort (C++17 implementation) terminates and leaves in [first,last) a sorted permutation of what was there, for every comparator that is a strict weak order.',
 'all ranges, all element types, all strict weak orders',
 'All permutations with duplicates; all comparators.',
 a('sort.hpp','sort','sort_internal::quick_sort','sort_internal::partition'))
p('C46','sort touches only its range',
 'utki::sort never reads or writes an element outside [first,last), whatever predicate the comparator computes, and leaves everything outside unchanged; for a comparator that is not irreflexive it may fail to terminate.',
 'all arrays, all sub-ranges, all comparators',
 'All comparators including inconsistent ones.',
 a('sort.hpp','sort_internal::quick_sort','sort_internal::partition','sort_internal::find_if_not'))
p('C47','linq select and where keep order',
 'select(f) yields f of each element (with its position, for two-argument f) in order, same count; where(p) yields exactly the elements satisfying p in the original order, if p takes its argument by const reference or the collection is an lvalue (a by-value predicate on an rvalue collection moves the elements out).',
 'all collections, all functions',
 'All functions and collections.',
 a('linq.hpp','linq_collection_aggregator::select','linq_collection_aggregator::where'))
p('C48','linq group_by partitions',
 'group_by(f) yields a map with exactly the keys f takes, in ascending order, each mapped to the non-empty list of elements with that key in original order; together the groups contain each element exactly once.',
 'all collections, all key functions',
 'All functions and collections.',
 a('linq.hpp','linq_collection_aggregator::group_by'))
p('C49','linq order_by sorts',
 'order_by(key) yields a permutation of the collection with non-decreasing keys.',
 'all collections, all key functions into a totally ordered type, every result std::sort may produce',
 'All collections.',
 a('linq.hpp','linq_collection_aggregator::order_by'))
p('C50','linq on an lvalue leaves the source unchanged',
 'Any chain of select/where/group_by/order_by started with linq(lvalue) leaves the source collection as it was; started with linq(rvalue) the elements are moved through the chain without copying the whole collection first. The number of copied elements is known: the first operation on an lvalue copies the elements it keeps and those it passes by value; later operations, and all on an rvalue, copy none, except that group_by copies each element for a key function that takes elements by value.',
 'all collections, all operation chains',
 'All chains; moved-from effects are type dependent.',
 a('linq.hpp','linq','linq_collection_aggregator'))
p('C51','zip stops at the shortest collection',
 'Iterating zip(c1..cn) yields exactly min(size) tuples, the i-th made of the i-th elements, and never advances any iterator past its end.',
 'all tuples of collections of all sizes',
 'All size combinations.',
 a('views.hpp','views::zip_view','views::zip'))
p('C52','skip_front and reverse views',
 'skip_front<n>(c) iterates c without its first n elements when c has at least n; reverse(c) iterates c backwards; reversing twice is the identity.',
 'all collections, all n',
 'All sizes.',
 a('views.hpp','skip_front','views::reverse'))
p('C53','flags are a set algebra',
 'For flags over any enum, ~, &, |, ^ (and the assigning forms) act flag-wise as not/and/or/xor; ~ never sets a flag outside the enum; is_set/is_clear/==/!= answer for all flags; the Boolean-algebra laws hold.',
 'all enum sizes, all flag sets',
 '2^n flag sets for every n.',
 a('flags.hpp','flags::operator~','flags::operator&','flags::operator|','flags::operator^','flags::is_set','flags::is_clear'))
p('C54','flags remember the last write',
 'After any history of set/clear/invert and bitwise-assignment operations, get(e) is what the last operation affecting e determined; operations on one flag do not disturb others.',
 'all enum sizes, all histories',
 'Unbounded histories.',
 a('flags.hpp','flags::set','flags::clear','flags::get','flags::invert'))
p('C55','signal calls exactly the connected callbacks in order',
 'After any history of connect and disconnect (each id disconnected at most once), emit calls exactly the callbacks connected and not disconnected, each once, in order of connection; size()/empty() count them; disconnecting one never affects another.',
 'all histories, all callback sets',
 'Unbounded histories.',
 a('signal.hpp','signal::connect','signal::disconnect','signal::emit','signal::size'))
p('C56','signal emission with callbacks that change the connections',
 'During emit a callback may connect new callbacks (which are then called in the same emission) and disconnect already-called or not-yet-called other callbacks (the latter are not called), but a callback that disconnects itself makes emit undefined.',
 'all finite callback behaviours that connect/disconnect',
 'All re-entrant schedules.',
 a('signal.hpp','signal::emit','signal::connect','signal::disconnect'))
p('C57','emit passes the given arguments to every callback',
 'Every connected callback receives the argument values given to emit.',
 'all argument types (by value, by reference), all argument values, any number of callbacks',
 'All argument types and numbers of callbacks.',
 a('signal.hpp','signal::emit'))
p('C58','spin_lock gives mutual exclusion',
 'If every thread unlocks only what it has locked, then in every interleaving at most one thread is between lock() returning and unlock(), and each critical section sees all writes of the previous ones.',
 'any number of threads, all interleavings, any number of lock/unlock rounds',
 'All interleavings.',
 a('spin_lock.hpp','spin_lock::lock','spin_lock::unlock'))
p('C59','spin_lock makes progress',
 'Whenever the lock is free and some thread is in lock(), the next attempt by any such thread acquires it; from every reachable state every waiting thread can still acquire the lock (no deadlock); a failed attempt changes nothing. In every infinite execution with a fair scheduler in which every holder releases the lock, as long as some thread waits the lock is acquired again and again, though not necessarily by that thread: a thread can wait for ever.',
 'any number of threads, all reachable states, all infinite executions',
 'All reachable states; what happens eventually cannot be observed by a test that ends.',
 a('spin_lock.hpp','spin_lock::lock','spin_lock::unlock'))
p('C60','scope_exit runs its action exactly once, on scope exit, unless released',
 'For every program of nested scopes the action of a scope_exit that was not released runs exactly once when its scope ends, in reverse order of construction, whether the scope ends normally or by an exception, and an exception thrown by the action does not escape; after release() it does not run and release returns it.',
 'all scope programs, all actions (throwing or not, empty std::function)',
 'All control-flow paths.',
 a('utility.hpp','scope_exit'))
p('C61','singleton: at most one live instance',
 'Over any history of constructing and destroying singleton objects (constructors that throw included) at most one is live; constructing a second throws std::logic_error and does not disturb the first; is_created() is true exactly while one is live and inst() is that object; after destruction a new one can be created.',
 'all histories',
 'Unbounded histories.',
 a('singleton.hpp','intrusive_singleton','singleton'))
p('C62','shared_ref is never null and keeps its object alive',
 'Over any history of make_shared/copy/assign/convert/move/destroy, every shared_ref that has not been moved from refers to a live object; the object is destroyed exactly when the last reference to it goes; dynamic_reference_cast throws std::bad_cast iff the cast fails and otherwise shares the object.',
 'all histories',
 'Unbounded histories.',
 a('shared_ref.hpp','shared_ref','make_shared','dynamic_reference_cast')+a('shared.hpp','make_shared_from','make_weak'))
p('C63','unique_ref owns exactly one object',
 'Over any history of make_unique/move/assign/convert/to_unique_ptr/destroy each object has exactly one owner until it is destroyed, and is destroyed exactly once; a unique_ref not moved from refers to a live object.',
 'all histories',
 'Unbounded histories.',
 a('unique_ref.hpp','unique_ref','make_unique'))
p('C64','Nested exceptions are all reported, outermost first',
 'For any mixture of exceptions nested to any depth, to_string, and what() of an exception thrown by utki::throw_with_nested, mention every exception of the chain with its type name and text, outermost first; current_exception_to_string does so for everything but exceptions thrown by utki::throw_with_nested, of which it gives only the type name. For chains of utki::throw_with_nested calls around an exception not derived from utki::exception, and for chains of std::throw_with_nested calls, the result is exactly one line per exception, each with the indentation prefix.',
 'all nesting chains of any depth and mixture of exception kinds',
 'Unbounded nesting.',
 a('exception.hpp','stacked_exception','throw_with_nested')+a('exception.cpp','to_string','current_exception_to_string','exception::to_string'))
p('C65','next/prev advance by any size_t',
 'utki::next(it, n) and prev(it, n) move by exactly n for every size_t n, even above PTRDIFF_MAX, in steps that each fit difference_type, and terminate.',
 'all n < 2^64, all iterator difference types',
 'n above 2^63 cannot be exercised on real containers.',
 a('utility.hpp','next','prev'))
p('C66','flip_map inverts a map',
 'flip_map(m) maps each value of m to a key of m having that value, the smallest such key; flipping twice gives m back iff the values of m are distinct.',
 'all finite maps over totally ordered keys and values',
 'All maps.',
 a('utility.hpp','flip_map','flip_pair'))
p('C67','contains decides membership',
 'contains(c, v) is true iff some element of c (key, for maps) equals v.',
 'all containers and values',
 'All containers.',
 a('utility.hpp','contains'))
p('C68','span access stays inside the span',
 'For a span over any buffer, at(i) returns element i or throws std::out_of_range exactly for i >= size; subspan(o, n) with o+n <= size denotes elements o..o+n-1, subspan(o) the rest; front/back/iterators denote the first/last/all elements; nested subspans compose.',
 'all buffers, all offsets and counts (SIZE_MAX included)',
 'All offsets and counts.',
 a('span.hpp','span::subspan','span::at','span::front','span::back','make_span','make_vector'))
p('C69','deep comparison of spans is lexicographic',
 'deep_equals is element-wise equality with equal length; deep_less_than is the lexicographic order; the six comparisons form a total order when the elements are totally ordered.',
 'all pairs and triples of spans',
 'All pairs.',
 a('span.hpp','deep_equals','deep_less_than','deep_greater_than','deep_less_or_equals','deep_greater_or_equals'))
p('C70','Enum iteration and enum arrays',
 'Iterating enum_iterable visits every enumerator before enum_size exactly once in order, for any underlying type; an enum_array element written through an enumerator is read back through it and does not affect others; zip_with_enum pairs every element with its enumerator.',
 'all enum sizes and underlying integer types, all write histories',
 'All sizes and types.',
 a('enum_iterable.hpp','enum_iterable')+a('enum_array.hpp','enum_array','enum_array::zip_with_enum'))
p('C71','version_duplet order, packing and text',
 'to_uint32_t is injective and order preserving: a >= b iff a.to_uint32_t() >= b.to_uint32_t(); >= and < form a total order; major and minor can be recovered from the packed number. operator<< writes both numbers in decimal with a dot between; different versions have different texts, and string_parser reads the numbers back whatever follows that does not continue the number.',
 'all pairs of versions, all texts that follow',
 '2^64 pairs.',
 a('version.hpp','version_duplet::to_uint32_t','operator>=','operator<','operator<<'))
p('C72','sign and integer powers',
 'sign(n) is -1 exactly for negative n and 1 otherwise; powN(x), whenever it is defined, is x^N modulo 2^w, and it is always defined for unsigned types of at least 32 bits and for types whose products fit int (8 bit, signed 16 bit); for signed types of at least 32 bits it is x^N, undefined exactly when x^N is not representable; pow2 of uint16_t, computed in int, is undefined exactly above 46340.',
 'all integer widths and values',
 'All values.',
 a('math.hpp','sign','pow2','pow3','pow4','pow5','pow6'))
p('C73','Tick differences survive wrap-around',
 'For two readings of get_ticks_ms taken at most 2^32 - 1 ms apart on a monotonic clock the unsigned difference later - earlier is the elapsed milliseconds (to less than one millisecond), even when the counter wraps.',
 'all clock values and elapsed times',
 'The counter wraps after 49 days.',
 a('time.cpp','get_ticks_ms'))
p('C74','Compile-time tables',
 'index_of_v<T, variant<...>> is the position of T; offset_sequence adds the offset to every index; uint_size<n>/int_size<n> is the smallest integer type of at least n bytes.',
 'all type lists, all index sequences, all n from 1 to 8',
 'Type lists and sequences are unbounded.',
 a('variant.hpp','index_of')+a('utility.hpp','offset_sequence')+a('type_traits.hpp','uint_size','int_size'))
p('C75','String and byte views are faithful',
 'make_string, make_string_view, make_vector, to_uint8_t and to_char preserve the exact sequence of bytes, embedded NULs included; only the const char* forms stop at the first NUL.',
 'all byte sequences',
 'All sequences.',
 a('string.hpp','make_string','make_string_view')+a('span.hpp','make_span','make_vector','to_uint8_t','to_char'))
p('C76','assert_always aborts exactly on false conditions',
 'assert_always(true, ...) has no effect; assert_always(false, ...) prints exactly one message (location, error word coloured iff stderr is a terminal, optional user text) and aborts, unless the print function given by the user throws, in which case that exception comes out and nothing is printed; utki::assert does the same in debug builds and nothing otherwise (condition checkers are not even called). On Android the same message goes to the log of the system, up to its first zero byte.',
 'all conditions, locations, printers and terminal states',
 'Aborting paths are hard to test; all messages.',
 a('debug.cpp','assert_always')+a('debug.hpp','assert'))
p('C77','Logging writes exactly the given text',
 'log writes exactly what the given function writes, once, to standard output and nothing else (an empty function is allowed and does nothing); logcat writes its arguments one after the other; log_debug, logcat_debug and run_debug do the same in debug builds and have no effect otherwise.',
 'all functions, including throwing ones, all argument lists',
 'All argument lists and functions.',
 a('log.cpp','log')+a('log.hpp','logcat')+a('debug.hpp','log_debug','logcat_debug','run_debug'))
FF='src_deps/fast_float/fast_float.h'
def ff(*syms): return [f"{FF}: {s}" for s in syms]
p('C78','from_chars for floating point uses the longest number and never reads outside the text',
 'For every character range and format utki::from_chars(float|double|long double) returns normally, reads no character outside the range, and reports as used exactly the longest prefix that is a decimal literal of the format ([-]digits[.digits][(e|E)[+-]digits], digits before or after the point; exponent required for scientific, not taken for fixed and hex); if there is none, the longest prefix that is a text for infinity or not-a-number; if there is none of these either, it reports invalid_argument, an end pointer equal to the begin pointer, and stores nothing.',
 'all character ranges, all four formats, all three types, all rounding modes, all platforms the code distinguishes',
 'Unbounded texts; the scanner reads eight characters at a time near the end of the range.',
 a('string.cpp','from_chars','to_fast_float_format')+ff('parse_number_string','parse_infnan','from_chars_advanced'))
p('C79','from_chars for floating point rounds correctly',
 'The value stored for a decimal literal is the floating-point number of the type nearest to the exact decimal value, ties to the even mantissa, with the sign of the literal (also for zero), independent of the current rounding mode of the floating-point unit; for long double it is the nearest double. This holds for literals of fewer than 2^28 - 1000 digits; beyond that it fails.',
 'all literals of fewer than 2^28 - 1000 digits with any exponent, all formats, all rounding modes, all platforms the code distinguishes, float, double and long double',
 'There are infinitely many literals, and the hard cases lie within 2^-64 of the middle between two numbers.',
 a('string.cpp','from_chars')+ff('compute_float','compute_error','digit_comp','bigint','rounds_to_nearest','from_chars_advanced'))
p('C80','from_chars reports exactly the numbers out of range',
 'For a decimal literal from_chars reports result_out_of_range exactly if its absolute value is at least the middle between the largest finite number of the type and the next power of two, or is not zero and at most half of the smallest positive number; otherwise it reports success. For long double the range is that of double and nothing is stored out of range.',
 'all literals of fewer than 2^28 - 1000 digits, all formats, all rounding modes, all platforms the code distinguishes',
 'The boundaries are single points among infinitely many literals.',
 a('string.cpp','from_chars')+ff('from_chars_advanced'))
p('C81','from_chars recognises infinity and not-a-number',
 'A prefix [-]inf, [-]infinity, [-]nan or [-]nan(letters, digits, underscores), in upper or lower case, is converted to the infinity or a not-a-number of that sign with success, and the longest such prefix is used.',
 'all texts with such a prefix, all formats and types',
 'All texts and capitalisations.',
 a('string.cpp','from_chars')+ff('parse_infnan','fastfloat_strncasecmp'))
p('C82','read_number for floating-point types',
 'read_number<float|double|long double> skips white space, reads the longest literal and leaves the text after it; it returns the nearest number, or 0 if the literal is too large or (without being zero) too small; infinity and not-a-number texts are read as such; it throws std::invalid_argument exactly if neither follows, and then only white space is consumed. No assertion fires.',
 'all texts (literals of fewer than 2^28 - 1000 digits for the value), all rounding modes, debug and release builds',
 'Unbounded texts.',
 a('string.hpp','string_parser::read_number')+a('string.cpp','from_chars'))
p('C83','word_wrap breaks a line only where necessary',
 'If a line ends before a word with only spaces between, then this word, together with the spaces, does not fit into the width.',
 'all texts and all widths greater than zero',
 'Unbounded texts.',
 a('string.cpp','word_wrap'))
p('C84','from_chars for floating point gives the same result on every platform and in every rounding mode',
 'The result of utki::from_chars(float|double|long double) and of read_number for these types - error code, characters used, value stored - is the same in every rounding mode and on every platform the code distinguishes: 32-bit and 64-bit, with and without 128-bit integers and compiler intrinsics, little- and big-endian, with and without excess precision of floating-point operations. There is no limit on the length of the text.',
 'all texts, all formats, all pairs of platforms and rounding modes',
 'The code for other platforms is not compiled where the tests run, and the texts are infinitely many.',
 a('string.cpp','from_chars')+a('string.hpp','string_parser::read_number')+ff('read8_to_u64','leading_zeroes','full_multiplication','limb','scalar_add','scalar_mul','rounds_to_nearest','min_exponent_fast_path'))
p('C85','Angle conversions are accurate',
 'pi, two_pi and log_2 are the doubles nearest to the numbers they stand for. For double and float, deg_to_rad(x) differs from x * pi / 180, and rad_to_deg(x) from x * 180 / pi, by at most three units of rounding error relative to the result (plus the smallest number of the type); converting there and back changes the angle by at most seven; both functions are monotone, keep sign, zero, infinity and not-a-number, and map half a turn exactly. For long double the same holds, except that the relative error of a single conversion lies between 2^-55 and 2^-54, because pi is a double. Where the intermediate product is too large for the type the result is infinite, although the exact result may be far from too large. With signed integer types of at least 32 bits pi counts as 3.',
 'all float, double and long double (80-bit and 128-bit) arguments, all signed integer types of at least 32 bits and their values; arithmetic that rounds to nearest',
 'All 2^64 doubles; the error is measured against real numbers.',
 a('math.hpp','pi','two_pi','log_2','deg_to_rad','rad_to_deg'))
p('C86','Sign and powers of floating-point numbers',
 'For double, float and long double, powN(x) differs from x^N by at most N units of rounding error relative to the result (plus three times the smallest number of the type, if |x| < 1) when |x|^N is below the limit of the type by more than N such units, and is the infinity with the sign of x^N when |x|^N is above the limit by as much; in between it is one or the other. Infinities and not-a-number are kept, and no power of a number is not-a-number. A number of greater magnitude never has a power of smaller magnitude, odd powers keep the order of all numbers, and the powers of -x are those of x, with the opposite sign if the power is odd. sign(x) is -1 for numbers below zero and for minus infinity, and 1 for all others, both zeros and not-a-number included.',
 'all float, double and long double (80-bit and 128-bit) arguments; arithmetic that rounds to nearest',
 'All 2^64 doubles; the error is measured against real numbers.',
 a('math.hpp','sign','pow2','pow3','pow4','pow5','pow6'))
p('C87','Number of comparisons made by sort',
 'utki::sort of n elements calls an irreflexive comparator at most n^2 + n - 2 times, and for every n there are n different numbers for which it calls it exactly that often, so the bound O(n log n) of std::sort, for which it is described as a drop-in replacement, does not hold. A range that is sorted already is left as it is, equivalent elements included, with at most 2 n log2 n comparisons; a range of two or more equivalent elements takes exactly 2 n.',
 'all ranges of any length, all comparators that always return and are irreflexive (also inconsistent and stateful ones)',
 'The number of orders of n elements grows as n!; the worst one is not found by random tests.',
 a('sort.hpp','sort'))
p('C88','demangle gives the readable name and keeps the heap clean',
 'With GCC and Clang demangle(type) is the text the ABI demangler gives for the name of the type, or the name itself if the demangler fails for whatever reason; the buffer allocated by the demangler is freed exactly once, also if copying its text throws std::bad_alloc. With MSVC it is the name without a leading class keyword.',
 'all names, all demanglers that obey the C++ ABI, all allocation failures, all heaps',
 'Failures of the demangler and of the allocation are not reproducible in tests; a leak is not observable in the result.',
 a('debug.cpp','demangle'))
p('C89','Type functions give the types their names promise',
 'remove_const_reference_t<T> is the only type R that is neither a reference nor const and for which T is R, const R or a reference to one of them; volatile is kept, unlike by std::remove_cvref. remove_const_pointer_t<T> removes one pointer, whatever its own qualifiers, and const from what it points to. is_specialization_of_v<X, T> is true exactly for T = X<...> without const, volatile or reference. is_scoped_enum_v<T> is true exactly for scoped enumerations, const and volatile ones included. type_or_void_t<T> is T::type or void. The mask constants select from every non-negative integer the byte, the nibble or the one bit they are named after.',
 'all C++ types: classes, enumerations, template specializations, pointers, arrays, functions, references, nested to any depth and with any qualifiers; all non-negative integers for the masks',
 'There are infinitely many types.',
 a('type_traits.hpp','remove_const_reference_t','remove_const_pointer_t','is_specialization_of_v','is_scoped_enum_v','is_type_defined','type_or_void_t','byte_mask','lower_nibble_mask','upper_nibble_mask','bit_0_mask'))
p('C90','linq calls each function once per element, in order, and is left at the first exception',
 'select, where and group_by call the given function exactly once for each element, from the first to the last, and use what that call returned, even if the function answers differently from call to call. If a call throws, the exception leaves the operation and no further call is made. The collection is then, as in the normal case, unchanged if it was passed as an lvalue; of an rvalue exactly those elements are moved from which were taken by the function (select), selected (where) or grouped (group_by) before.',
 'all functions with any effects, all collections, all points at which the function throws',
 'All functions and all points of failure; the order and the number of calls are not visible with pure functions.',
 a('linq.hpp','select','where','group_by'))
p('C91','Release builds do the same as debug builds in which no assertion fails',
 'If a call is defined in a debug build and no assertion stops it there, then the release build, in which assertions are compiled out, gives the same result or exception and leaves the objects in the same state. This holds for every function of the library that contains assertions, for histories of calls, and for programs composed of such calls.',
 'all calls with all arguments of the functions that contain assertions; all histories of the stateful classes',
 'Tests run one build on chosen inputs; the claim relates the two builds on every input.',
 a('debug.hpp','ASSERT','utki::assert')+a('span.hpp','span')+a('deserializer.hpp','deserializer')+a('tree.hpp','traversal')+a('flags.hpp','flags')+a('string.cpp','word_wrap')+a('shared_ref.hpp','shared_ref')+a('singleton.hpp','singleton'))
p('C92','A copy of a signal is independent of it, and its callbacks stay',
 'A copy of a signal (also one made by moving) has the same callbacks in the same order; making it calls none of them and leaves the original and all connections as they are. From then on the two are independent: what is connected to, disconnected from, or changed by calls inside the callbacks of one does not show in the other. A connection disconnects exactly one callback, of the signal it was made on, as long as it was not used and that signal was not assigned to or destroyed; with any other signal, in particular a copy, it is not defined. So callbacks that were copied can never be disconnected: destroying such a copy aborts in a debug build.',
 'all histories of creating, copying, assigning, connecting, disconnecting, emitting and destroying any number of signals, with callbacks that have state and may throw',
 'Histories are unbounded, and connections used with the wrong signal are undefined behaviour that a test may not notice.',
 a('signal.hpp','signal','connect','disconnect','emit'))
p('C93','The text of a stacked exception stays as long as it was promised',
 'The text what() of an exception thrown by utki::throw_with_nested points to can be read until that exception is destroyed; copies and other exceptions do not disturb it, and nothing is freed twice or leaked. If there is no memory for the text, what() returns a text that can always be read. This is what std::exception promises for what(), which is a const function. It is not so if what() is called again on the same object: the first text is then freed; and two threads that call what() of the same exception object can free the same memory twice.',
 'all histories of throwing, copying, destroying and asking exceptions for their text, with or without memory; all schedules of any number of threads',
 'A freed text usually still reads right in a test; histories and schedules are unbounded.',
 a('exception.hpp','stacked_exception','what'))
p('C94','The process ends well while a singleton exists',
 'When the process ends, each singleton object that still exists is destroyed at most once and as it was made. This is so for variables of main if main returns, for static objects destroyed before the static pointer to the instance, and for objects made by new, unless the build is a debug build with a standard library that clears the pointer first. In all other cases, in particular for the documented use as a variable of main if std::exit is called, the library deletes an object not made by new.',
 'all histories of creating and destroying singleton objects of all storage durations, both ways of ending the process, both builds, any order of static destruction',
 'What happens at the end of the process is after the last assertion of a test.',
 a('singleton.hpp','intrusive_singleton','singleton','instance_type'))
p('C95','Moving a traversal iterator when memory runs out',
 'If memory runs out while a traversal iterator is moved, ++ and -- throw std::bad_alloc and the iterator can be used further: ++ leaves it where it was, -- where it was or at a node on the way. This is so if the request for memory that fails is the first, third, fifth and so on of the call. If it is the second, fourth and so on, the iterator is left broken: dereferencing and comparing it still work, ++ and index() abort in a debug build, and --, is_last_child, insert, insert_after and erase are undefined.',
 'all forests, all positions, all patterns of failing requests for memory, both builds',
 'Tests do not run out of memory, let alone at every possible request.',
 a('tree.hpp','traversal','operator++','operator--'))
p('C96','Logging from several threads',
 'When several threads log at the same time, nothing that a thread logs is lost, doubled or reordered. Messages of different threads do not mix if each call passes one argument and the stream library writes it at once, or if the threads log while they hold a common lock. Otherwise they can mix: logcat writes its arguments one by one.',
 'all numbers of threads, all sequences of calls and arguments, all schedules',
 'A test sees the schedules that happen to occur; messages mix rarely.',
 [*a('log.hpp','logcat','log'),*a('log.cpp','log')])
p('C97','The work done by traversal iterators',
 'A traversal of n nodes, forward or backward, takes work proportional to n however deep the trees are: at most two units for each node, a unit being one call of ++ or -- or one level gone up or down. Between any two positions k apart it takes at most 2 * k units and the difference of the depths. A single ++ or -- takes one unit and one more for each level it goes up (or down).',
 'all forests, all positions, both builds',
 'Tests measure the time for some trees; the bound is for trees of every shape.',
 a('tree.hpp','traversal','operator++','operator--'))
p('C98','Which traversal iterators survive changes of the tree',
 'insert, insert_after and erase through a valid iterator are defined whether or not a vector gets a new buffer, and the iterator they return is valid: after any sequence of changes it moves, compares, dereferences and gives its index as before. Another iterator stays valid, with the same index path and at a node with the same value, exactly if its path does not lead through the changed list at or after the place of the change (or through it at all, if the elements were moved to a new buffer). An iterator that does not stay valid may still refer to its node. Incrementing the end iterator aborts debug builds and is undefined in release builds, whatever happened before.',
 'all forests, all sequences of insertions and erasures, all iterators, all reallocations, both builds',
 'Whether a stale iterator works in a test depends on capacities and on the allocator; a test that passes proves nothing about validity.',
 a('tree.hpp','traversal','insert','insert_after','erase','iterator_internal'))
p('C99','Erasing nodes during a traversal',
 'The loop that goes from begin() to end(), erases the nodes that satisfy a predicate and continues from the returned iterator, ends after at most as many rounds as there are nodes, uses no invalid iterator, and leaves exactly the nodes for which neither they nor a node above them satisfies the predicate.',
 'all forests, all predicates, both builds, all histories of the forest',
 'Erasing the last child at several levels, roots, or everything are different paths through the code; there are infinitely many shapes.',
 a('tree.hpp','traversal','erase','begin','end'))
p('C100','Lists of numbers survive the text form',
 'A list of integers written with to_string (unsigned ones each in any base), or of decimal floating-point literals, with white space and at most one comma between neighbours, is read completely, in order, by the loop that calls read_number and skip_whitespaces_and_comma until the parser is empty; signed numbers need nothing between them before a minus sign. Numbers joined with join and taken apart with split are read back as well.',
 'all lists of any length, all values, bases and separators, all integer widths and floating-point types, both builds',
 'What follows a number decides how far it is read; values, bases, separators and neighbours can be combined in infinitely many ways.',
 a('string.hpp','string_parser','read_number','skip_whitespaces_and_comma','to_string','split','join')+a('string.cpp','string_parser'))
p('C101','References to one object may be used from several threads',
 'Whatever threads do with shared_refs and weak pointers to an object (copy, move to another thread, use, lock, destroy), in any interleaving: the object exists as long as there is a reference to it, is destroyed exactly once, only after the last reference, and never gets a reference again; a weak pointer gives a reference if and only if there is one at that moment; and the construction and every use of the object in any thread happen before its destruction.',
 'all numbers of threads, objects and references, all interleavings of their steps',
 'Counting races depend on the schedule: a lost update or a missing ordering shows only in rare interleavings, and tests see a few of them.',
 a('shared_ref.hpp','shared_ref','make_shared')+a('shared.hpp','make_weak','make_shared_from'))
p('C102','Wrapping wrapped text again changes nothing',
 'If a text is wrapped with word_wrap and the lines, put together with newlines, are wrapped again with the same or a greater width, the same lines result, unless the last line ends with spaces, which are then removed (the line disappears if it has nothing else); a text that does not end with a space has no such last line. A single line wrapped again gives itself without its trailing spaces.',
 'all texts, all widths greater than zero',
 'Whether a second wrapping moves a word depends on every interplay of widths, spaces and word lengths.',
 a('string.cpp','word_wrap'))
p('C103','Insertion and erasure in a tree undo each other',
 'Erasing the subtree just inserted with insert or insert_after, with the iterator returned, gives the tree as it was before, and, after insert, the iterator as it was. Inserting an erased subtree again before the iterator that erase returned gives the old tree if and only if the subtree had a next sibling or was a root; else it ends up on a higher level.',
 'all forests, all positions, all inserted trees',
 'Undo has to work at every place of every tree; tests try a few.',
 a('tree.hpp','traversal','insert','insert_after','erase'))
p('C104','Floating-point numbers survive the text form',
 'A finite float, double or long double written with max_digits10 significant decimal digits (9 for float, 17 otherwise), in any notation, is read back exactly, bit for bit, by from_chars and by string_parser::read_number, in every rounding mode and on every platform. A number of at most digits10 digits (6, 15), neither out of range nor below the smallest normal number, comes back unchanged when it is read and then written with as many digits, and different ones are read as different numbers. With one digit less, or one more, neither holds.',
 'all floating-point numbers, all literals of fewer than 2^28 - 1000 digits, all rounding modes and platforms',
 'There are 2^64 doubles and infinitely many literals; the critical cases are the few where decimal and binary spacing nearly coincide.',
 a('string.cpp','from_chars')+a('string.hpp','string_parser::read_number'))
p('C105','Reading floating-point numbers keeps order and exact values',
 'Of two literals the one that denotes the larger number is never read, by from_chars, as the smaller number, signs, zeros and overflow to infinity included; the same for read_number for numbers in range (others are read as 0). A literal that denotes a number of the type exactly is read as this number, whatever its number of digits (up to 2^28 - 1000).',
 'all pairs of literals, all formats, types, rounding modes and platforms',
 'Monotonicity has to hold across the switches between the fast paths and the slow path, which depend on exponent and number of digits.',
 a('string.cpp','from_chars')+a('string.hpp','string_parser::read_number'))
p('C106','Encoded forms compare like what they encode',
 'Unsigned integers serialized with serialize_be compare, as byte strings, like the integers; texts of characters from 1 to 0x7fffffff converted with to_utf8 compare, as strings of unsigned bytes, like the sequences of characters, and are equal only if the texts are. serialize_le does not have this property.',
 'all integers of all widths, all texts, all places in memory',
 'Order has to be kept for every pair, in particular where the number of bytes changes.',
 a('utility.hpp','serialize_be','serialize_le')+a('unicode.cpp','to_utf8'))
p('C107','Conversions can be done piece by piece',
 'to_utf8 of two texts one after the other is to_utf8 of both together. If a text begins with complete UTF-8 forms, to_utf32 gives the characters of this part followed by what to_utf32 gives for the rest, whatever that is. If base64 text begins with an unpadded part of whole groups of four characters, base64_decode gives the bytes of this part followed by those of the rest; encodings of pieces whose sizes are multiples of three may be joined. For a padded first part this is not so.',
 'all texts, all ways to split them, all memory around them, both builds, signed and unsigned char',
 'There are infinitely many texts and places to split them, and the state at the split must never leak.',
 a('unicode.cpp','to_utf8','to_utf32')+a('unicode.hpp','utf8_iterator')+a('base64.cpp','base64_decode'))
p('C108','How deep the calls of sort are nested',
 'Sorting n elements with a comparator that returns and never says that an element precedes itself, utki::sort calls itself to a depth of at most n (at least 1). This depth is reached: for every n there is an order of n different numbers for which n nested calls are made. For ranges that are already sorted and have no equal neighbours the depth is at most log2(n) + 1.',
 'all ranges, comparators, lengths',
 'The worst order is different for every length and has probability 2^(n-1)/n! among all orders; a test on random data never sees it.',
 a('sort.hpp','sort','quick_sort','partition'))
p('C109','The only object, used by threads',
 'Threads construct and destroy objects of a singleton class and call is_created() and inst(), at any time. If no two of these operations race (every two, one of which changes the instance, are ordered by synchronisation between the threads, for instance all are done under one mutex) then at most one object lives at any time, a constructor returns exactly if none lives and deletes nothing, inst() gives the object that lives, is_created() says whether one does, and the assertion in the destructor holds. Otherwise: two constructors in two threads can both return, and the second deletes the object of the first; calling inst() while another thread constructs is a data race.',
 'all numbers of threads, all programs made of these operations, all schedules, both builds',
 'What goes wrong depends on the schedule: the window between looking at the pointer and storing it is a few instructions wide.',
 a('singleton.hpp','singleton','singleton::inst','singleton::is_created'))
p('C110','Text can be split and wrapped piece by piece',
 'split(a + d + b, d) is split(a, d) followed by split(b, d); join of two non-empty collections one after the other is the first joined, the delimiter, the second joined; split(a + whitespace + b) is split(a) followed by split(b). word_wrap wraps what follows a newline as if nothing was before it, and what is before, unless it ends with a space, as if nothing followed: paragraphs are wrapped one after the other. A paragraph ending with spaces keeps them unless it is the last one.',
 'all texts, delimiters, collections, widths greater than zero, both language standards and builds',
 'The loops carry positions and flags over the place of division; that nothing of this leaks has to hold for every text before it.',
 a('string.hpp','split','join')+a('string.cpp','split','word_wrap'))
p('C111','The result of sort is determined',
 'For a strict weak order that finds only equal elements equivalent, utki::sort leaves exactly what any correct sorting function such as std::sort leaves (so C++17 and C++20 builds do the same), whatever the order of the elements was before. For any strict weak order the elements at each place are equivalent to those that any other correct sorting function leaves there. Elements that are equivalent may change their order: sort is not stable.',
 'all ranges, all strict weak orders, all results of other correct sorting functions',
 'It has to hold for all orders of all elements, and for sorting functions of any standard library.',
 a('sort.hpp','sort','quick_sort'))
p('C112','A greater width does not give more lines',
 'If every space of the text directly follows a character that is neither space nor newline, then word_wrap with a greater width gives at most as many lines as with the smaller one, also if words are longer than the line. With several spaces one after the other a greater width can give more lines.',
 'all single-spaced texts, all pairs of widths greater than zero, both language standards and builds',
 'The lines for two widths end at different places from the first line on; the comparison needs all texts and all pairs of widths.',
 a('string.cpp','word_wrap'))
p('C113','Wrapping gives as few lines as possible, but for one column',
 'A text in which every space directly follows a character that is neither space nor newline gives no more lines with word_wrap of a width than any other way of dividing it at spaces and newlines into lines shorter than the width. A division into lines that exactly fill the width can have fewer lines.',
 'all single-spaced texts, all widths greater than zero, all divisions of the text into lines, both language standards and builds',
 'The number of divisions of a text grows exponentially with its length; the claim is about all of them.',
 a('string.cpp','word_wrap'))
p('C114','Several spin locks',
 'Threads may hold several spin_locks at a time. Each lock still has at most one holder; memory that is used only under one of the locks has no data races, and a read of it gives the value last written, whatever the other locks are used for. If all threads take locks in a common order there is no deadlock: every thread in lock() can still get the lock. If moreover the scheduler is fair and everybody who does not wait for ever releases what they hold, then whenever a thread waits for a lock, some thread gets this lock or a later one, and if no further calls of lock() are made, all calls return. (A particular thread can starve.) Threads each of which waits for a lock that one of them holds wait for ever; this includes a single thread that locks a lock it already holds: spin_lock is not recursive.',
 'any number of threads and locks, all assignments of memory to locks, all interleavings, all reachable states and all continuations, all infinite executions',
 'Deadlocks and missing visibility depend on the schedule and on all locks held by all threads; tests see few schedules.',
 a('spin_lock.hpp','spin_lock::lock','spin_lock::unlock'))
p('C115','Spans share the elements they point to',
 'A span and its copies and subspans refer to the elements of the container, not to copies of them. All ways to element i of a span (s[i], at, iterators, reverse iterators, front, back) lead to the same element. An assignment through one changes this element of the container and nothing else, and makes no span invalid: every span reads, at each element, the value last assigned to it through whatever span. Element j of s.subspan(o, n) is element o + j of s. Spans without a common element, such as subspans that follow each other, do not influence each other. An assignment through at() with a wrong index throws and changes nothing. make_vector gives a copy that shares no element with any span.',
 'all containers, all spans into them, all ways of access, all sequences of assignments',
 'All sequences of assignments through all combinations of overlapping spans.',
 a('span.hpp','span','subspan','make_vector','front','back','at'))
p('C116','Which functor of overloaded a visit calls',
 'A visit of a variant with overloaded{...} that compiles calls one of the functors, which depends only on the type of the alternative, and returns what it returns; a valueless variant makes it throw. The order in which the functors are given does not matter, and functors that cannot be called with any alternative have no influence. If the functors take their argument by value or const reference: a functor for the very type of the value is called with the value itself, whatever others there are; if there is none, the functor with an auto parameter, rather than one to whose type the value could be converted; if there is neither, the one with the best conversion. Two that are equally good do not compile. Functors with auto& or auto&& take over from const T& when the variant is not const.',
 'all lists of functors with parameters T, T&, const T&, T&&, auto, auto&, const auto&, auto&&, all alternatives, all implicit conversions between types, all values',
 'All combinations of functors, types and conversions; tests see the few they instantiate.',
 a('variant.hpp','overloaded'))
p('C117','What UTF-8 decoding makes of arbitrary bytes',
 'The result of to_utf32 is determined for every sequence of bytes, well-formed or not. The bytes are cut into sequences: the first byte of each announces its length (its second highest bit is ignored, so that a stray continuation byte starts a sequence), the bytes after it are taken whatever they are and contribute their lower six bits. Decoding ends without a further character at the end, at a sequence with the number 0 and at a sequence that is not complete; a complete sequence with the first byte 0xBE, 0xBF, 0xFE or 0xFF is undefined behaviour. For a NUL-terminated string only a sequence with the number 0 ends it: an incomplete sequence takes the terminator for one of its bytes, and decoding reads on behind it. All characters are from 1 to 0x7fffffff, text after a malformed but complete sequence is decoded correctly, and decoding and encoding again gives the original bytes for exactly the texts in shortest form.',
 'all spans of bytes, all objects with NUL-terminated or unterminated strings, all lists of complete sequences before a text, all indeterminate contents of the buffers of to_utf8',
 'All byte strings, in particular malformed ones; tests decode a few well-formed ones.',
 a('unicode.hpp','utf8_iterator','to_utf32','to_utf8')+a('unicode.cpp','utf8_iterator::operator++','to_utf32'))
p('C118','Several signals whose callbacks use all of them',
 'Whatever the callbacks of any number of signals do, during nested emissions of the same and of other signals: create signals, destroy them, connect, disconnect, emit, throw. Each emission calls callbacks of its own signal only, that are connected to it at that moment, each at most once and in the order of their connection; an emission that ends has called all that were connected all the time. An id returned by one signal is never that of another. The behaviour of a program is defined as long as it uses only signals that exist, passes to disconnect only ids that are connected to that signal, and no callback is disconnected and no signal destroyed while that callback of it runs; the only undefined behaviour is one of these three. In a debug build destroying a signal with connected callbacks aborts, and nothing else does.',
 'all numbers of signals, all callbacks and programs, all nestings of emissions, all states, debug and release builds',
 'All programs with re-entrant callbacks over several objects; tests use one signal and callbacks that do not touch it.',
 a('signal.hpp','signal::connect','signal::disconnect','signal::emit','signal::~signal'))
p('C119','The configuration macros tell what the program is compiled for',
 "After including config.hpp, with whatever macros the compiler has predefined for a system, a compiler, a processor and a standard: `#if CFG_OS == …`, `CFG_OS_NAME`, `CFG_COMPILER`, `CFG_CPU` and `CFG_ENDIANNESS` are true for exactly the right one of the listed names; CFG_CPP, CFG_CPU_BITS, CFG_CPU_VERSION, CFG_COMPILER_MSVC_TOOLS_V, CFG_COMPILER_VERSION_… and CFG_…_DEPLOYMENT_TARGET have the right numbers and the latter three are defined only where they apply; DLLEXPORT is the export or import attribute with Microsoft's compiler on Windows and empty elsewhere. No other macro is changed, and including the header is never an error.",
 "all sets of predefined macros that a compilation for one of ten systems with one of four kinds of compilers by any standard may have, all versions of Microsoft's compiler, five processors, both byte orders",
 'A test runs in the few environments it is compiled in; the header is for all.',
 a('config.hpp','CFG_OS','CFG_OS_NAME','CFG_COMPILER','CFG_COMPILER_MSVC_TOOLS_V','CFG_CPP','CFG_CPU','CFG_CPU_BITS','CFG_CPU_VERSION','DLLEXPORT','CFG_ENDIANNESS'))
p('C120','Including windows.hpp leaves the macros of the program alone and removes those of windows.h that disturb',
 'On Windows, whatever macros the program has and whatever <windows.h> does to them: <windows.h> is included with _WINSOCKAPI_ and _WINSOCK_H defined, so that it does not include <winsock.h>; after windows.hpp these two are as they were before, if <windows.h> left them alone; min, max and DELETE are not defined; every other macro is as <windows.h> left it. On other systems nothing is included and no macro changes.',
 'all sets of macros of the program, all effects of <windows.h>',
 'A test includes it in one program, with one version of <windows.h>.',
 a('windows.hpp','_WINSOCKAPI_','_WINSOCK_H','max','min','DELETE'))
p('C121','ASSERT tells its condition and its message apart',
 'ASSERT with one argument, or two, each of which may contain any commas between parentheses: in a debug build it is a call of utki::assert with exactly these arguments and the place in the source, in a release build it is nothing. The arguments can be told apart in only one way. With three to ten arguments it does not compile, in debug and in release builds alike. UTKI_GET_MACRO with ten names gives the one that belongs to the number of arguments.',
 'all texts with matching parentheses as arguments, all numbers of arguments',
 'All texts of arguments.',
 a('macros.hpp','UTKI_GET_MACRO')+a('debug.hpp','ASSERT','ASSERT1','ASSERT2'))
p('C122','An assertion checks what its condition means, whatever its type',
 'utki::assert, and ASSERT in a debug build, of a number or truth value checks that it is true, of a pointer, smart pointer or std::function that it is not null, of a function that finds out the condition that it returns true, calling it exactly once; with or without a message, and with C++20 with or without a place. In a release build nothing happens. A number given as the place makes a failing assertion undefined.',
 'all kinds of types of conditions, all values, functions with any effects, messages and places, both builds, C++17 and C++20',
 'Which overload is meant depends on the types in each call; tests call some of them, and a function that is never called cannot be told from one that returned true.',
 a('debug.hpp','utki::assert','ASSERT'))
p('C123','A span made from another object refers to just its elements and does not allow more',
 'If a conversion of a pointer to characters, array, vector, string, string view, span or list in braces to a span compiles, the span has the address and the number of the elements of the object (for pointers, those before the terminating zero), the same type of elements, and does not allow to change what could not be changed before; and all such conversions compile. make_string_view, make_string, to_utf32 and utf8_iterator take all texts and bytes, except changeable strings, for which make_string_view, make_string and utf8_iterator are ambiguous, and pointers to characters in make_string_view. std::is_convertible is wrong in exactly four cases.',
 'all types of elements, const or not, all kinds of objects as lvalues, const lvalues and rvalues',
 'What compiles with wrong types cannot be seen by tests that compile.',
 a('span.hpp','span','to_uint8_t','to_char')+a('string.hpp','make_string','make_string_view')+a('unicode.hpp','to_utf32','utf8_iterator'))
p('C124','One linq aggregator used several times',
 'An aggregator made by linq from an lvalue can be kept and used any number of times while the variable lives: each chain of operations gives the result for the contents of the variable at that time, changes made meanwhile included, and no chain changes the variable. After the variable is gone, using it is undefined behaviour. linq of an rvalue empties the variable, which does not matter any more afterwards; each chain gives the result for what the chains before left: select with functions taking const references leaves everything, select with other functions and group_by leave moved-from elements, where leaves moved-from the elements it selected, order_by and get leave nothing.',
 'all collections, all sequences of chains, changes of the variable and its end, all functions, all effects of moving elements',
 'Tests use an aggregator once, in one expression; what later uses give depends on all earlier ones.',
 a('linq.hpp','linq','linq_collection_aggregator'))
p('C125','A visit of several variants calls the most specific functor',
 'std::visit(overloaded{...}, variants...) that compiles calls, if all variants hold values, exactly one of the functors, chosen by the types of the values only, with the values in the order of the variants; if one holds none it throws. The order in which the functors are given does not matter. If any functor is declared for the types held, each parameter for the type itself or for any type, then the most specific of these is called with the values unconverted, and if none of them is the most specific one the program does not compile; in particular the functor for just these types is called if there is one. Otherwise, without generic functors, the one called has the best conversions.',
 'all numbers of variants, lists of alternatives, functors with any numbers of parameters of all types, all implicit conversions, all values',
 'The number of combinations grows exponentially with the number of variants, and which functor is called depends on all others.',
 a('variant.hpp','overloaded'))
p('C126','Objects that refer to each other go when nothing leads to them',
 'After any history, an object exists as long as a chain of shared_refs or shared_ptrs leads from a variable of the program to it, through the members of other objects. An object that exists although no such chain leads to it is part of a ring of objects that refer to each other, or such a ring refers to it. So without rings (weak pointers do not count) exactly the objects to which a chain leads exist, and when the last variable is gone all objects have been destroyed, each once.',
 'all histories of operations on references, pointers and objects with any members, in all builds',
 'A leak depends on the whole graph of objects and on the history that made it; tests make few graphs.',
 a('shared_ref.hpp','shared_ref')+a('shared.hpp','make_weak'))
p('C127','References compare as their objects do',
 "After any history, comparing references that were not moved from with < or ==, with each other or with an object, gives what the operator of the objects gives for the objects referred to, whether these are the same object or not, and changes nothing. A std::set of references is therefore ordered by the values of the objects, has for each value the first reference inserted with it, and finds a reference exactly if one to an equal value was inserted, as long as the objects are not changed. An exception of the objects' operator ends the program; comparing a reference that was moved from ends a debug build and is undefined in a release build.",
 'all histories of shared and unique references, all operators of the objects that are strict weak orders, all sequences of insertions',
 'That a set finds what was inserted depends on the values of all elements and on the history of the references.',
 a('shared_ref.hpp','shared_ref::operator<','shared_ref::operator==')+a('unique_ref.hpp','unique_ref::operator<','unique_ref::operator=='))
p('C128','When a singleton is one across shared libraries',
 'In a process of several modules (executable and libraries), whatever is done in whichever module: on ELF systems, if all modules export their copies of the variable (the default) and were loaded with the program or globally, or if the symbol is unique as GCC makes it, at most one object is live, construction in any module fails while one is, and is_created() and inst() in any module tell of the object constructed in any other. The same holds on every platform for intrusive_singleton with its variable defined in one module. Otherwise it does not: on Windows, with hidden visibility, or with libraries loaded locally, an object constructed in one module does not exist for the other, where inst() fails and a second object can be constructed.',
 'all lists of modules with all visibilities and orders of loading, all histories of operations in all modules, both kinds of platform, debug and release builds',
 'The behaviour depends on how each library was compiled and loaded; the test of the project has one library and is switched off on Windows, where it fails.',
 a('singleton.hpp','singleton','intrusive_singleton::inst','intrusive_singleton::is_created'))
p('C129','Deleting through destructable destroys the whole object',
 'Deleting an object of any class derived from destructable, directly or through other classes and whatever other bases it has, through a pointer to destructable or to any class between, destroys the whole object: the destructor of every class in the hierarchy and the destructor of every member run exactly once, those of a class before those of its bases, the later declared before the earlier. Through a base without a virtual destructor it would be undefined.',
 'all class hierarchies without virtual bases of any depth and width, all numbers of members, all pointers to subobjects',
 'Tests have a few hierarchies.',
 a('destructable.hpp','destructable'))
p('C130','Angles and powers with excess precision',
 'On platforms that compute with float in the format of double, or with both in the 80-bit format: deg_to_rad gives a finite result for every finite argument, and deg_to_rad and rad_to_deg differ from the exact results by at most 1.6 units of relative rounding error and the smallest positive number; rad_to_deg gives an infinity, with the sign of the argument, where the exact result is clearly too large and none where it is clearly not. Zeros, infinities, not-a-numbers and signs are kept. The powers are as near to the exact ones as without excess precision, and for float they are the same in every bit.',
 'all arithmetics that round to nearest, the three combinations of formats, all numbers',
 'Tests run on a platform without excess precision, with a few numbers.',
 a('math.hpp','deg_to_rad','rad_to_deg','pow2','pow3','pow4','pow5','pow6'))
p('C131','What braced lists mean for a tree',
 'A list in braces stands for a tree node without a value of its own that has the elements as children: a value is a leaf, a list inside the list is again such a node, {} is a leaf with the default value; tree(v, {...}) is a node with the value v and the children in the list. This holds to any depth of nesting for value types that are classes and expressions of just this type. It does not hold generally: for scalar types the value of a node made by a list of children is indeterminate, so that comparing it, and nesting it in another list, is undefined; an expression that still has to be converted, like a string literal, makes {"a"} a leaf and {"a", {...}} a node with that value, and does not compile in longer lists; a list of one tree is that tree or its parent depending on the compiler; tree({v}) is a leaf but tree({v, w}) a node with two children.',
 'all nested lists of values, trees and containers, of any depth and length; value types that are scalars or classes; compilers with and without the rule of CWG 1467 for all classes',
 'Tests have a few lists, and cannot see that a value is indeterminate.',
 a('tree.hpp','tree'))
p('C132','Copying and changing trees when memory runs out',
 'Copying a tree either gives a tree with the same values and shape that shares no memory with the original, or throws std::bad_alloc and gives back all memory it had requested. It requests memory exactly once for every node with children, and as often as copying the values does. Destroying a tree gives back all its memory, each block once. insert, insert_after (of a tree to be moved or copied) and erase either succeed, with the documented result, or throw std::bad_alloc and leave the trees, the tree passed and the iterator passed as they were, with no memory lost. erase requests memory only for the copy of the iterator passed to it.',
 'all forests, trees with values that own any number of blocks of memory, valid iterators passed as copies or moved, capacities of vectors, patterns of failing requests, both orders of evaluation of the arguments',
 'Tests do not run out of memory, let alone at every possible request, and do not account for every block.',
 a('tree.hpp','tree','insert','insert_after','erase'))
p('C133','Signals when memory runs out',
 'connect either adds the callback as the last one, without changing the others, or throws std::bad_alloc and leaves the signal as it was, with no memory lost. disconnect and the destruction of a signal request no memory and give back all that was kept for the callbacks, once. A copy of a signal is complete and has memory of its own, or std::bad_alloc is thrown and nothing is left of it. Assigning a signal to another is not all or nothing: if memory runs out, no memory is lost and as many callbacks are connected as before, but the first of them have been replaced.',
 'all signals, callbacks that own any number of blocks of memory, passed as copies or moved, patterns of failing requests, both builds',
 'Tests do not run out of memory, let alone at every possible request, and do not account for every block.',
 a('signal.hpp','signal','connect','disconnect'))
p('C134','sort of elements whose copies and moves may throw',
 'Whichever comparison, copy or move of an element throws, or copy of the comparator, the exception leaves sort, all objects that sort made are destroyed, nothing outside of the range is touched and no element moved from is looked at. All elements are still in the range, in some order, unless an assignment of elements threw: then one of them may be lost and a moved-from object is in its place. If sort returns, the range is sorted. Sorting n elements copies elements at most 5 (n - 1) times and moves them at most 3 n (n - 1) / 2 times.',
 'all elements, comparators, ranges inside of larger blocks, and any behaviour of copies, moves and comparisons, exceptions at any point included',
 'An exception can come from any of the calls; tests throw at a few of them, and cannot bound the number of copies for all inputs and comparators.',
 a('sort.hpp','sort','quick_sort','partition','iter_swap','find_if_not'))
p('C135','linq when memory runs out',
 'If a request for memory fails during where, group_by, select or order_by, std::bad_alloc leaves the operation and all memory it had requested is given back, while the other memory stays in use: nothing leaks and nothing is given back twice. An lvalue collection is then as it was; of an rvalue the elements up to some point have been moved away by where and group_by and are lost, the others are as they were. Without a failed request the operations give what they should. order_by of an rvalue requests no memory, and select requests the memory for all its results at once, before the function is called for the first time.',
 'all collections, element types with any memory of their own, functions, growth factors of vectors, and all patterns of failing requests',
 'Any request may fail; tests do not make allocation fail at all.',
 a('linq.hpp','where','group_by','select','order_by'))
p('C136','Assigning trees',
 'After `a = b` the tree a is b and b is as it was, and the memory of the old children of a that is not used any more has been given back; after `a = std::move(b)` the tree a is what b was, with its nodes where they were, b is a leaf, and all old children of a have been destroyed. Nothing else changes. This holds for trees of which neither is a part of the other, also if both are nodes of one tree. `a = a` changes nothing; `a = std::move(a)` loses the children. If b is a part of a, `a = std::move(b)` is right with libstdc++ and undefined with libc++, and `a = b` is right with libstdc++ only if the vector of children of a has to grow. By way of a copy, `tree t(b); a = std::move(t);`, it is always right.',
 'all trees, places of both trees, sizes and capacities of the vectors of children, and both ways standard libraries implement the assignment of vectors',
 'Whether memory is read after it has been given back depends on capacities and on where in the tree the other tree is; a test that reads freed memory may well pass.',
 a('tree.hpp','tree','operator='))
p('C137','How deep calls are nested for trees',
 'Copying and destroying a tree need room on the stack for just as many nested calls as the tree has levels, whatever the number of its nodes; a stack with less room overflows. Comparing two trees needs at most as many as the lower one has levels, and just as many if they are equal; assigning a tree at most one more than the higher of both has levels. Moving a tree to a leaf needs one call. A tree of n nodes can have n levels.',
 'all trees, and all sizes of the stack',
 'How deep a tree may be depends on the size of the stack; a test builds small trees, and breadth does not show what depth does.',
 a('tree.hpp','tree','operator=','operator=='))
p('C138','Deleting objects with virtual bases',
 'An object whose class is derived from destructable, virtually or not, directly or over several ways, can be deleted through a pointer to destructable or to any class between: every subobject and every member is destroyed exactly once, a virtual base once however many classes have it, bodies of destructors before members, members and bases in reverse order, everything of a class before its bases and its virtual bases. If all classes are derived from destructable virtually the object has one destructable. Through a pointer to a base without a virtual destructor deletion is undefined.',
 'all classes with any bases, virtual or not, any numbers of members, and pointers to all subobjects',
 'The order and the sharing depend on the whole hierarchy of classes; there are unboundedly many.',
 a('destructable.hpp','destructable'))
p('C139','Views that are kept',
 'A view refers to its collections and can be iterated over later and repeatedly, with a body that has any effects but does not change the number of elements. A loop over zip(c1, ..., cn) calls the body with references to the first elements, the second elements and so on, just as many times as the least size the collections had when the view was made, also when the same collection is given several times and when collections have grown since; if one has shrunk below that it is undefined. Loops over skip_front<n>(c) and reverse(c) go over the elements the collection has when the loop begins. An exception of the body ends the loop.',
 'all collections and sizes, all histories between the making of the view and the loop, all bodies that keep the sizes',
 'Which elements are visited depends on the sizes at two moments and on the effects of the body.',
 a('views.hpp','zip','skip_front','reverse'))
p('C140','Comparisons that throw or have effects',
 "The comparison functions call the operators of the user's types in a fixed order and no more than needed. operator==(tree, tree) compares the values of nodes with the same path, in pre-order, up to the first difference of values or numbers of children, and terminates the program if a comparison throws. deep_equals compares no elements of spans of different sizes and otherwise those with the same index up to the first that differ; deep_less_than asks for each common index whether the left is less and then whether the right is less, up to the first yes; contains compares in order up to the first equal element. Out of these an exception of the operator passes, and nothing further is called. With operators without effects the results are those of C44, C67 and C69.",
 'all trees, spans and containers, all operators with any effects and exceptions',
 'Which calls are made depends on the answers of the operators; the place of an exception is arbitrary.',
 a('tree.hpp','tree')+a('span.hpp','deep_equals','deep_less_than','deep_greater_than','deep_less_or_equals','deep_greater_or_equals')+a('utility.hpp','contains'))
p('C141','Making iterators and reading indices when memory runs out',
 'begin(), end(), make_iterator, index() and operator[] of a traversal, whatever requests for memory fail, either end as they would with memory without limit (with the same result, std::out_of_range included), or throw std::bad_alloc after a request has failed. The result owns its memory and, apart from that, just the memory that was in use before is in use; an exception leaves nothing in use that was not before. This also holds when the index is given as a list in braces.',
 'all forests, indices and iterators, all growth policies of vectors, all patterns of failing requests',
 'Every single request for memory may be the one that fails; there are unboundedly many patterns.',
 a('tree.hpp','traversal','make_iterator','index'))
p('C142','Lists of arguments and memory of make_string',
 'Whatever vsnprintf does and whichever requests for memory fail, make_string and make_string_va_list return the text or throw what they would throw with memory without limit, or throw std::bad_alloc after a request has failed. The string returned owns its memory and nothing else stays in use; an exception leaves no memory in use. Each va_list that is started or copied is ended just once and none is used for formatting twice, and the va_list given to make_string_va_list can be used again by the caller. A short text needs no memory at all.',
 'all outcomes of vsnprintf, lengths of texts, sizes kept within string objects, growth policies and patterns of failing requests, in debug and release builds',
 'Every single request may fail, errors of vsnprintf depend on the locale, and a list that is not ended has no effect that could be observed on most platforms.',
 a('string.cpp','make_string','make_string_va_list'))
p('C143','Visiting several variants by references',
 'A visit of any number of variants with functors whose parameters are of the forms T, T&, const T&, T&&, or the same with auto, if it compiles, calls one functor that depends only on the types of the values and on how the variants are given (lvalue, const lvalue, rvalue), not on the order of the functors. The functor gets the values themselves, or what they are converted to. Every variant holds the same alternative afterwards; its value is what the functor left if the parameter is a reference by which it can be changed, what moving leaves if it was moved into a parameter by value, and as before otherwise; a const variant never changes. A variant without a value makes the visit throw std::bad_variant_access and change nothing. A functor for T& and one for const T& can be used together, the first is called if all variants can be changed; functors that can change another one of two variants each are ambiguous. With one variant it is the functor of C116, with parameters by value and const reference the one of C125.',
 'all numbers of variants, alternatives, functors, kinds of parameters, conversions between types, values and effects of functors on their parameters',
 'The choice depends on all functors and all combinations of alternatives at once; there are infinitely many sets of functors.',
 a('variant.hpp','overloaded'))
p('C144','Iterators of traversals that point nowhere',
 'A default-constructed iterator of a traversal has depth zero and an empty index, and is the one that make_iterator gives for an empty index and for no other. It is equal to itself, different from every iterator at a position of a traversal (end included) and precedes all of them; no comparison with it is undefined. Stepping back gives it at begin() and at no other position. Moving it aborts debug builds and is undefined in release builds, and never asks for memory; what it points to cannot be used.',
 'all forests, all positions in them, all indices',
 'All forests and positions; a test of an undefined use may well pass.',
 a('tree.hpp','traversal::iterator_internal'))
p('C145','Views of lists whose elements come and go during the loop',
 'Let the collections be such that iterators to other elements stay valid when elements are inserted and erased (std::list, sets, maps). A loop over skip_front<n>(c) or over a zip view visits just the elements, or tuples, that there were before the loop, in order, if its body changes only what is in front of the elements it is called with. A loop over reverse(c) visits the elements there were, the last first, if its body keeps the element it is called with, those in front of it and the one next to it. A body that erases the element it is called with makes a loop over skip_front undefined; in a loop over reverse it makes the element in front of it be left out.',
 'all collections and states, all bodies of loops with any effects',
 'All collections and all changes during the loop; a test of an undefined use may well pass.',
 a('views.hpp','skip_front','reverse','zip'))
p('C146','Logging and assertions when the standard streams fail',
 'The device behind std::cout or std::cerr may fail at any time, after any part of the text. What log and logcat leave on the device is in order, without gaps and repetitions, and if the stream is usable afterwards all text is there. Unless the program asked the stream for exceptions log returns in any case, and after a failure all further text is lost until the program clears the state of the stream; if it asked for exceptions log writes everything or throws. A failed assertion never returns, whatever happens to std::cerr: it aborts, with the whole message or a beginning of it written. Only if the program asked std::cerr for exceptions and the device fails it throws instead.',
 'all printing functions and texts, all failures of the devices, all states of the streams',
 'Devices fail at arbitrary points; tests write to devices that do not fail.',
 [*a('log.hpp','logcat','log'),*a('log.cpp','log'),*a('debug.cpp','assert_always')])
p('C147','The format of the standard streams in logs and assertions',
 'Texts and integers given to logcat are printed one after the other in the base that std::cout has then, and leave its format as it is, so that such calls do not influence each other. Manipulators among the arguments (the base, the width, the fill character and its side) stay in force for later calls: several calls print the same as one call with all arguments. On Android every call starts with the format of a new stream, so that the same calls may print different texts there. The message of a failed assertion does not depend on the formats of the streams, so that line numbers are always decimal; only the width of std::cerr applies, to the message as a whole.',
 'all arguments and manipulators, all formats of the streams, all sequences of calls',
 'Formats come from anything printed before, in any order.',
 [*a('log.hpp','logcat','log'),*a('log.cpp','log'),*a('debug.cpp','assert_always')])
p('C148','Printing versions, flags and spans to streams with a format, and cat',
 'A version printed to a stream with the base ten and no width is its two numbers with a dot between, and the stream is as before. A width applies to the major number alone, so that the text is longer than the width and versions do not line up; in another base the text may be that of another version. Flags are printed as zeros and ones in every base and a width applies to all of them together. The elements of a span are printed in order with nothing between them; a width applies to the first one alone, and an empty span leaves it to the next output. cat gives the concatenation of its arguments with numbers in decimal, so that it can be split and nested; it does not depend on the formats of other streams, and manipulators apply only to later arguments of the same call.',
 'all versions, flags, spans and arguments, all formats of the streams',
 'Formats come from anything printed before; the values are arbitrary.',
 [*a('version.hpp','operator<<'),*a('flags.hpp','operator<<'),*a('span.hpp','operator<<'),*a('string.hpp','cat')])
out=os.path.join(os.path.dirname(os.path.abspath(__file__)),'..','properties.jsonl')
with open(out,'w') as f:
    for x in P: f.write(json.dumps(x,ensure_ascii=False)+'\n')
print(len(P))
