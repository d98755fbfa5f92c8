{"id": "C01", "title": "Integer serialization round-trips", "statement": "Writing an unsigned integer of any width with serialize_le/serialize_be (and the 16/32/64-bit wrappers) and reading it back from the same address with the matching deserialize function returns the same integer, wherever in the buffer it is written.", "quantifier": "all widths n >= 1 bytes, all values of that width, all buffers and offsets with n bytes of room", "why_tests_cant": "2^64 values times all buffer positions; a test samples a few.", "anchors": ["src/utki/utility.hpp: serialize_le", "src/utki/utility.hpp: deserialize_le", "src/utki/utility.hpp: serialize_be", "src/utki/utility.hpp: deserialize_be"]}
{"id": "C02", "title": "Deserialization loses nothing", "statement": "Reading n bytes with deserialize_le/_be and writing the result back with the matching serialize function reproduces exactly the same n bytes, so the byte encoding is a bijection.", "quantifier": "all n >= 1, all byte strings of length n", "why_tests_cant": "All 256^n byte strings cannot be enumerated.", "anchors": ["src/utki/utility.hpp: serialize_le", "src/utki/utility.hpp: deserialize_le", "src/utki/utility.hpp: serialize_be", "src/utki/utility.hpp: deserialize_be"]}
{"id": "C03", "title": "Byte order and exact footprint of serialization", "statement": "serialize_le puts the byte of weight 256^i at offset i, serialize_be puts it at offset n-1-i; the call returns the address n bytes further, and changes no byte outside those n.", "quantifier": "all widths, values, buffers and offsets", "why_tests_cant": "A stray write or swapped byte for some value or position outside the sample would pass.", "anchors": ["src/utki/utility.hpp: serialize_le", "src/utki/utility.hpp: serialize_be", "src/utki/utility.hpp: serialize16le", "src/utki/utility.hpp: serialize32le", "src/utki/utility.hpp: serialize64le", "src/utki/utility.hpp: serialize16be", "src/utki/utility.hpp: serialize32be", "src/utki/utility.hpp: serialize64be"]}
{"id": "C04", "title": "Float serialization preserves every bit pattern", "statement": "serialize_float_le/_be followed by deserialize_float_le/_be returns a float with the identical 32-bit representation, NaN payloads, infinities, denormals and signed zeros included, and the bytes are the IEEE-754 bits in the named byte order.", "quantifier": "all 2^32 float representations, all buffers and offsets", "why_tests_cant": "All representations in all positions; NaN payloads cannot be compared with ==.", "anchors": ["src/utki/utility.hpp: serialize_float_le", "src/utki/utility.hpp: deserialize_float_le", "src/utki/utility.hpp: serialize_float_be", "src/utki/utility.hpp: deserialize_float_be"]}
{"id": "C05", "title": "A deserializer is a bounds-checked cursor", "statement": "Over any history of read/skip calls, each call that asks for at most the remaining number of bytes returns the decoding of exactly the next bytes and advances by that many; each call that asks for more throws std::invalid_argument and leaves the deserializer unchanged; no byte outside the given span is ever read; size() and empty() always report what is left.", "quantifier": "all input buffers, all finite sequences of read_uint8/16/32/64_le/_be, read_float_le/_be, read_string, read_span and skip with all lengths", "why_tests_cant": "Histories and lengths are unbounded, including lengths near SIZE_MAX.", "anchors": ["src/utki/deserializer.cpp: deserializer::read_string", "src/utki/deserializer.cpp: deserializer::read_span", "src/utki/deserializer.cpp: deserializer::read_uint8", "src/utki/deserializer.cpp: deserializer::read_uint16_le", "src/utki/deserializer.cpp: deserializer::read_uint64_be", "src/utki/deserializer.cpp: deserializer::skip", "src/utki/span.hpp: span::subspan"]}
{"id": "C06", "title": "A deserializer reads back what the serializers wrote", "statement": "If a record of typed fields (integers of each width and endianness, floats, strings, byte blocks) is written field after field with the utki serialize functions and then read with the corresponding deserializer calls, every call returns the field written and the deserializer ends up empty.", "quantifier": "all finite sequences of typed fields and all field values", "why_tests_cant": "Unbounded field sequences.", "anchors": ["src/utki/deserializer.cpp: deserializer", "src/utki/utility.hpp: serialize_le", "src/utki/utility.hpp: serialize_be"]}
{"id": "C07", "title": "base64_decode inverts RFC 4648 encoding", "statement": "For every byte string, base64_decode of its standard base64 encoding, with or without \"=\" padding, returns that byte string.", "quantifier": "all byte strings of all lengths", "why_tests_cant": "Unbounded lengths and all 3-byte groups.", "anchors": ["src/utki/base64.cpp: base64_decode", "src/utki/base64.cpp: base64_decode_quad", "src/utki/base64.cpp: decode_table"]}
{"id": "C08", "title": "base64_decode on arbitrary text: which inputs are safe", "statement": "base64_decode throws std::invalid_argument exactly when the text ends with \"=\" and is shorter than four characters; otherwise it never reads outside the text or the table and returns normally, except for text that is not padded and has length 1 modulo 4, or that contains a character outside ASCII where char is signed.", "quantifier": "all byte strings used as text, debug and release builds, signed and unsigned char", "why_tests_cant": "Memory safety over all malformed inputs.", "anchors": ["src/utki/base64.cpp: base64_decode", "src/utki/base64.cpp: decode_table"]}
{"id": "C09", "title": "base64_decode of malformed ASCII text is deterministic and bounded", "statement": "Characters outside the base64 alphabet are decoded as if they were \"A\"; the result length depends only on the text length and the amount of trailing padding, and never exceeds 3 bytes per 4 characters rounded up.", "quantifier": "all ASCII strings for which decoding is safe", "why_tests_cant": "All strings of all lengths.", "anchors": ["src/utki/base64.cpp: base64_decode", "src/utki/base64.cpp: base64_decode_quad"]}
{"id": "C10", "title": "UTF-32 to UTF-8 to UTF-32 round-trips", "statement": "For every UTF-32 string, to_utf32(to_utf8(s)) is s without its U+0000 characters and without characters above 0x7fffffff; in particular strings without those come back unchanged, through both the span and the NUL-terminated interface.", "quantifier": "all UTF-32 strings of all lengths", "why_tests_cant": "2^32 characters per position, unbounded length.", "anchors": ["src/utki/unicode.cpp: to_utf8", "src/utki/unicode.cpp: to_utf32", "src/utki/unicode.cpp: utf8_iterator::operator++"]}
{"id": "C11", "title": "to_utf8 of one character is the standard shortest encoding", "statement": "to_utf8(c) is a NUL-terminated array whose bytes are the UTF-8 encoding (with the historic 5- and 6-byte forms) of c: the shortest form, lead byte and continuation bytes as the standard prescribes, inside the 7-byte array; above 0x7fffffff it is the empty string.", "quantifier": "all 2^32 values of char32_t", "why_tests_cant": "All values; boundary errors hide between samples.", "anchors": ["src/utki/unicode.cpp: to_utf8(char32_t)"]}
{"id": "C12", "title": "utf8_iterator over a span stays inside the span and terminates", "statement": "For every byte span, constructing a utf8_iterator and incrementing it any number of times never reads a byte outside the span, and to_utf32 terminates with at most one character per byte; undefined behaviour is confined to lead bytes 0xBE, 0xBF, 0xFE and 0xFF followed by enough bytes (over-wide shift).", "quantifier": "all byte sequences, all numbers of increments", "why_tests_cant": "All malformed inputs.", "anchors": ["src/utki/unicode.cpp: utf8_iterator::utf8_iterator", "src/utki/unicode.cpp: utf8_iterator::operator++", "src/utki/unicode.cpp: to_utf32(utki::span<const uint8_t>)"]}
{"id": "C13", "title": "NUL-terminated UTF-8 decoding reads past no terminator of well-formed text", "statement": "Decoding a NUL-terminated well-formed UTF-8 string with to_utf32(const char*) never reads beyond the terminator and gives the same characters as the span interface.", "quantifier": "all well-formed UTF-8 texts", "why_tests_cant": "Reads past the end are usually silent; unbounded inputs.", "anchors": ["src/utki/unicode.cpp: utf8_iterator::utf8_iterator(const char*)", "src/utki/unicode.cpp: utf8_iterator::operator++", "src/utki/unicode.hpp: to_utf32(const std::string&)"]}
{"id": "C14", "title": "to_utf32 decodes every well-formed UTF-8 text", "statement": "For every concatenation of UTF-8 encodings of non-zero characters to_utf32 returns exactly these characters in order; text after an embedded NUL is not decoded.", "quantifier": "all well-formed UTF-8 texts, all suffixes after a NUL", "why_tests_cant": "Unbounded texts.", "anchors": ["src/utki/unicode.cpp: to_utf32", "src/utki/unicode.cpp: utf8_iterator::operator++"]}
{"id": "C15", "title": "join after split is the identity", "statement": "join(split(s, d), d) == s.", "quantifier": "all strings over any character type, all delimiters", "why_tests_cant": "Unbounded strings; leading, trailing and repeated delimiters in all combinations.", "anchors": ["src/utki/string.hpp: split(std::basic_string_view, element_type)", "src/utki/string.hpp: join"]}
{"id": "C16", "title": "split yields exactly the delimiter-free fields", "statement": "split(s, d) never fails, has one more element than s has occurrences of d, and no element contains d.", "quantifier": "all strings and delimiters", "why_tests_cant": "Unbounded strings.", "anchors": ["src/utki/string.hpp: split(std::basic_string_view, element_type)"]}
{"id": "C17", "title": "split after join is the identity", "statement": "For a non-empty collection of strings none of which contains d, split(join(xs, d), d) == xs; join of an empty collection is the empty string.", "quantifier": "all collections of strings, all delimiters", "why_tests_cant": "Unbounded collections.", "anchors": ["src/utki/string.hpp: split(std::basic_string_view, element_type)", "src/utki/string.hpp: join", "src/utki/views.hpp: skip_front"]}
{"id": "C18", "title": "Whitespace split returns the words", "statement": "split(s) returns the maximal runs of non-whitespace characters of s in order: every returned word is non-empty and whitespace-free, and s is these words separated (and possibly surrounded) by whitespace.", "quantifier": "all strings in the domain of std::isspace", "why_tests_cant": "Unbounded strings.", "anchors": ["src/utki/string.cpp: split(std::string_view)"]}
{"id": "C19", "title": "trim removes exactly the outer whitespace", "statement": "trim_front/trim_back/trim return the sub-view of s obtained by removing the longest whitespace prefix/suffix/both; the removed parts are all whitespace and the result neither starts (ends) with whitespace; trimming again changes nothing.", "quantifier": "all strings", "why_tests_cant": "Unbounded strings.", "anchors": ["src/utki/string.hpp: trim_front", "src/utki/string.hpp: trim_back", "src/utki/string.hpp: trim"]}
{"id": "C20", "title": "starts_with decides the prefix relation", "statement": "starts_with(str, prefix) is true iff str is prefix followed by something.", "quantifier": "all pairs of strings, C++17 and C++20 builds", "why_tests_cant": "All pairs of strings.", "anchors": ["src/utki/string.hpp: starts_with"]}
{"id": "C21", "title": "ends_with decides the suffix relation", "statement": "ends_with(str, suffix) is true iff str is something followed by suffix.", "quantifier": "all pairs of strings, C++17 and C++20 builds", "why_tests_cant": "All pairs of strings; repeated occurrences of the suffix.", "anchors": ["src/utki/string.hpp: ends_with"]}
{"id": "C22", "title": "make_indentation has depth steps", "statement": "make_indentation(depth, 0) is depth tabs and make_indentation(depth, size) is depth*size spaces.", "quantifier": "all unsigned depth and size", "why_tests_cant": "2^64 pairs; the product overflows 32 bits.", "anchors": ["src/utki/string.cpp: make_indentation"]}
{"id": "C23", "title": "make_string formats strings of any length", "statement": "make_string returns exactly the formatted text whatever its length, formats at most twice, never writes outside its buffers, and throws std::logic_error iff vsnprintf reports an error.", "quantifier": "all formatted texts (any length, including around the internal 1 KiB guess), all vsnprintf outcomes allowed by the C standard", "why_tests_cant": "Lengths are unbounded and the interesting lengths depend on internals.", "anchors": ["src/utki/string.cpp: make_string_va_list"]}
{"id": "C24", "title": "word_wrap respects the width", "statement": "For width > 0 every line returned by word_wrap has at most width characters and contains no newline.", "quantifier": "all strings, all widths > 0", "why_tests_cant": "Interaction of spaces, newlines and width is unbounded.", "anchors": ["src/utki/string.cpp: word_wrap"]}
{"id": "C25", "title": "word_wrap loses only spaces and newlines", "statement": "The concatenation of the returned lines, spaces and newlines removed, equals the input, spaces and newlines removed: no other character is dropped, duplicated or reordered; and every line is a contiguous piece of the input, in order.", "quantifier": "all strings, all widths", "why_tests_cant": "Unbounded strings.", "anchors": ["src/utki/string.cpp: word_wrap"]}
{"id": "C26", "title": "word_wrap never leaves the string", "statement": "word_wrap never dereferences an iterator at or beyond the end of the string, never builds a negative-length substring and none of its assertions can fire.", "quantifier": "all strings, all widths, debug and release", "why_tests_cant": "Memory safety over all inputs.", "anchors": ["src/utki/string.cpp: word_wrap"]}
{"id": "C27", "title": "word_wrap leaves fitting text alone", "statement": "If every newline-separated paragraph fits the width, the result is exactly the paragraphs, except that trailing spaces of the last paragraph are removed (and a last paragraph made only of spaces disappears); width 0 returns the whole text as one line.", "quantifier": "all strings and widths such that all paragraphs fit", "why_tests_cant": "Unbounded.", "anchors": ["src/utki/string.cpp: word_wrap"]}
{"id": "C28", "title": "word_wrap does not break words that fit a line", "statement": "A maximal run of non-space characters no longer than width is never divided between two lines.", "quantifier": "all strings, all widths > 0", "why_tests_cant": "Needs all combinations of word lengths, leading spaces and widths.", "anchors": ["src/utki/string.cpp: word_wrap"]}
{"id": "C29", "title": "A string_parser only consumes a prefix", "statement": "Over any history of parser calls the remaining view is always a suffix of the original text, size()/empty() describe it, and the calls never read outside it.", "quantifier": "all texts, all finite sequences of string_parser calls with all arguments", "why_tests_cant": "Unbounded histories.", "anchors": ["src/utki/string.cpp: string_parser", "src/utki/string.hpp: string_parser"]}
{"id": "C30", "title": "Parser reads return the maximal prefix", "statement": "read_word / read_word_until(c) / read_chars_until(c) return the longest prefix free of whitespace / of whitespace and c / of c and leave the rest; read_chars(n) returns the first min(n, size) characters and leaves the rest.", "quantifier": "all texts, all characters c, all n", "why_tests_cant": "Unbounded texts.", "anchors": ["src/utki/string.cpp: string_parser::read_word", "src/utki/string.cpp: string_parser::read_word_until", "src/utki/string.cpp: string_parser::read_chars", "src/utki/string.cpp: string_parser::read_chars_until"]}
{"id": "C31", "title": "Parser skips", "statement": "skip_whitespaces drops exactly the longest whitespace prefix; skip_whitespaces_and_comma drops the longest prefix that is whitespace with at most one comma; skip_inclusive_until(c) drops through the first c (all if none); skip_inclusive_until_one_of(cs) drops through the first character of cs and returns it, or NUL and everything if none.", "quantifier": "all texts, all characters and character sets", "why_tests_cant": "Unbounded texts.", "anchors": ["src/utki/string.cpp: string_parser::skip_whitespaces", "src/utki/string.cpp: string_parser::skip_whitespaces_and_comma", "src/utki/string.cpp: string_parser::skip_inclusive_until", "src/utki/string.cpp: string_parser::skip_inclusive_until_one_of"]}
{"id": "C32", "title": "peek and read of characters", "statement": "peek_char(n) returns the n-th remaining character without changing the parser, read_char returns the first and drops it; both throw std::invalid_argument exactly when that character does not exist and then leave the parser unchanged.", "quantifier": "all texts, all n", "why_tests_cant": "All n including SIZE_MAX.", "anchors": ["src/utki/string.cpp: string_parser::peek_char", "src/utki/string.cpp: string_parser::read_char"]}
{"id": "C33", "title": "Unsigned read_number reads C-style literals", "statement": "read_number<unsigned> skips whitespace, recognises 0x (hex), 0b (binary), leading 0 (octal) and decimal literals, returns the literal's mathematical value and leaves the text after the longest digit run; if the value does not fit it returns 0 and still consumes the digits; it throws std::invalid_argument exactly when, after whitespace, no decimal digit follows.", "quantifier": "all texts, all unsigned integer widths", "why_tests_cant": "All texts and widths.", "anchors": ["src/utki/string.hpp: string_parser::read_number", "src/utki/string.hpp: to_int(integer_base)"]}
{"id": "C34", "title": "Signed read_number reads decimal integers", "statement": "read_number<signed> skips whitespace, reads an optional \"-\" and the longest decimal digit run, returns its value, or 0 if it does not fit; throws std::invalid_argument exactly when no such integer follows.", "quantifier": "all texts, all signed integer widths", "why_tests_cant": "All texts and widths.", "anchors": ["src/utki/string.hpp: string_parser::read_number"]}
{"id": "C35", "title": "to_string and read_number are inverse", "statement": "For every unsigned value and each of the four bases, and every signed value in decimal, read_number applied to to_string(value, base) followed by any text that does not continue the literal returns the value and leaves exactly that text.", "quantifier": "all integer widths, all values, all bases, all following texts that do not continue the number", "why_tests_cant": "2^64 values times bases times suffixes.", "anchors": ["src/utki/string.hpp: to_string", "src/utki/string.hpp: string_parser::read_number"]}
{"id": "C36", "title": "to_string produces the canonical numeral and never overflows its buffer", "statement": "For every integer of at most 64 bits and every base the result is the optional minus sign, the base prefix (unsigned only) and the positional numeral without superfluous leading zeros; the internal buffer always suffices, so the result is never empty.", "quantifier": "all integers of up to 64 bits, all bases", "why_tests_cant": "2^64 values.", "anchors": ["src/utki/string.hpp: to_string"]}
{"id": "C37", "title": "Tree traversal visits every node once in pre-order", "statement": "Starting at begin() and incrementing until end(), the iterator dereferences to exactly the nodes of the forest in pre-order, each once; the loop ends after as many steps as there are nodes and no step is undefined.", "quantifier": "all forests of any size, depth and fan-out", "why_tests_cant": "Unbounded tree shapes.", "anchors": ["src/utki/tree.hpp: traversal::begin", "src/utki/tree.hpp: traversal::end", "src/utki/tree.hpp: traversal::iterator_internal::operator++"]}
{"id": "C38", "title": "Reverse traversal is the exact reverse", "statement": "Decrementing from end() visits the nodes in reverse pre-order down to begin(); ++ and -- undo each other on every position; rbegin()/rend() iterate the reversed sequence.", "quantifier": "all forests, all positions", "why_tests_cant": "Unbounded tree shapes.", "anchors": ["src/utki/tree.hpp: traversal::iterator_internal::operator--", "src/utki/tree.hpp: traversal::rbegin", "src/utki/tree.hpp: traversal::rend"]}
{"id": "C39", "title": "Index paths and iterators correspond", "statement": "make_iterator(it.index()) equals it and index() of make_iterator(path) is path for every node; is_valid(path) is true exactly for the paths of nodes; make_iterator throws std::out_of_range exactly for non-empty paths that leave the tree; operator[] returns the node at the path.", "quantifier": "all forests, all index paths of any length", "why_tests_cant": "Unbounded paths.", "anchors": ["src/utki/tree.hpp: traversal::make_iterator_internal", "src/utki/tree.hpp: traversal::is_valid", "src/utki/tree.hpp: traversal::iterator_internal::index", "src/utki/tree.hpp: traversal::operator[]"]}
{"id": "C40", "title": "Iterator comparison is traversal order", "statement": "For any two iterators of one forest (nodes or end), a<b holds exactly if a is visited before b, and ==, !=, >, <=, >= agree with it.", "quantifier": "all forests, all pairs of positions", "why_tests_cant": "All pairs in all trees.", "anchors": ["src/utki/tree.hpp: traversal::iterator_internal::operator<", "src/utki/tree.hpp: traversal::iterator_internal::operator=="]}
{"id": "C41", "title": "insert and insert_after splice a subtree", "statement": "insert(i, t) puts the subtree t immediately before i on the same level and returns an iterator to it; insert_after puts it as next sibling; the traversal sequence afterwards is the old one with the pre-order of t inserted at that place, all other nodes untouched.", "quantifier": "all forests, all positions (end included for insert), all inserted trees", "why_tests_cant": "Unbounded shapes.", "anchors": ["src/utki/tree.hpp: traversal::insert", "src/utki/tree.hpp: traversal::insert_after"]}
{"id": "C42", "title": "erase removes one subtree and returns the next node", "statement": "erase(i) removes exactly the subtree at i and returns the iterator to the node that followed that subtree in traversal order, or end(); all other nodes keep their order.", "quantifier": "all forests, all node positions", "why_tests_cant": "Unbounded shapes; last children at several levels.", "anchors": ["src/utki/tree.hpp: traversal::erase"]}
{"id": "C43", "title": "is_last_child, depth and at_level", "statement": "is_last_child is true exactly for nodes that are last among their siblings (false at end()); depth() is the number of nodes on the path from the root list; at_level(d) is the ancestor at level d.", "quantifier": "all forests, all positions, all levels", "why_tests_cant": "Unbounded shapes.", "anchors": ["src/utki/tree.hpp: traversal::iterator_internal::is_last_child", "src/utki/tree.hpp: traversal::iterator_internal::depth", "src/utki/tree.hpp: traversal::iterator_internal::at_level"]}
{"id": "C44", "title": "Tree equality is structural", "statement": "operator==(tree, tree) holds exactly when values and shapes agree everywhere; it is an equivalence if value equality is.", "quantifier": "all pairs of trees", "why_tests_cant": "Unbounded shapes.", "anchors": ["src/utki/tree.hpp: tree::operator=="]}
{"id": "C45", "title": "sort sorts", "statement": "utki::sort (C++17 implementation) terminates and leaves in [first,last) a sorted permutation of what was there, for every comparator that is a strict weak order.", "quantifier": "all ranges, all element types, all strict weak orders", "why_tests_cant": "All permutations with duplicates; all comparators.", "anchors": ["src/utki/sort.hpp: sort", "src/utki/sort.hpp: sort_internal::quick_sort", "src/utki/sort.hpp: sort_internal::partition"]}
{"id": "C46", "title": "sort touches only its range", "statement": "utki::sort never reads or writes an element outside [first,last), whatever predicate the comparator computes, and leaves everything outside unchanged; for a comparator that is not irreflexive it may fail to terminate.", "quantifier": "all arrays, all sub-ranges, all comparators", "why_tests_cant": "All comparators including inconsistent ones.", "anchors": ["src/utki/sort.hpp: sort_internal::quick_sort", "src/utki/sort.hpp: sort_internal::partition", "src/utki/sort.hpp: sort_internal::find_if_not"]}
{"id": "C47", "title": "linq select and where keep order", "statement": "select(f) yields f of each element (with its position, for two-argument f) in order, same count; where(p) yields exactly the elements satisfying p in the original order, if p takes its argument by const reference or the collection is an lvalue (a by-value predicate on an rvalue collection moves the elements out).", "quantifier": "all collections, all functions", "why_tests_cant": "All functions and collections.", "anchors": ["src/utki/linq.hpp: linq_collection_aggregator::select", "src/utki/linq.hpp: linq_collection_aggregator::where"]}
{"id": "C48", "title": "linq group_by partitions", "statement": "group_by(f) yields a map with exactly the keys f takes, in ascending order, each mapped to the non-empty list of elements with that key in original order; together the groups contain each element exactly once.", "quantifier": "all collections, all key functions", "why_tests_cant": "All functions and collections.", "anchors": ["src/utki/linq.hpp: linq_collection_aggregator::group_by"]}
{"id": "C49", "title": "linq order_by sorts", "statement": "order_by(key) yields a permutation of the collection with non-decreasing keys.", "quantifier": "all collections, all key functions into a totally ordered type, every result std::sort may produce", "why_tests_cant": "All collections.", "anchors": ["src/utki/linq.hpp: linq_collection_aggregator::order_by"]}
{"id": "C50", "title": "linq on an lvalue leaves the source unchanged", "statement": "Any chain of select/where/group_by/order_by started with linq(lvalue) leaves the source collection as it was; started with linq(rvalue) the elements are moved through the chain without copying the whole collection first. The number of copied elements is known: the first operation on an lvalue copies the elements it keeps and those it passes by value; later operations, and all on an rvalue, copy none, except that group_by copies each element for a key function that takes elements by value.", "quantifier": "all collections, all operation chains", "why_tests_cant": "All chains; moved-from effects are type dependent.", "anchors": ["src/utki/linq.hpp: linq", "src/utki/linq.hpp: linq_collection_aggregator"]}
{"id": "C51", "title": "zip stops at the shortest collection", "statement": "Iterating zip(c1..cn) yields exactly min(size) tuples, the i-th made of the i-th elements, and never advances any iterator past its end.", "quantifier": "all tuples of collections of all sizes", "why_tests_cant": "All size combinations.", "anchors": ["src/utki/views.hpp: views::zip_view", "src/utki/views.hpp: views::zip"]}
{"id": "C52", "title": "skip_front and reverse views", "statement": "skip_front<n>(c) iterates c without its first n elements when c has at least n; reverse(c) iterates c backwards; reversing twice is the identity.", "quantifier": "all collections, all n", "why_tests_cant": "All sizes.", "anchors": ["src/utki/views.hpp: skip_front", "src/utki/views.hpp: views::reverse"]}
{"id": "C53", "title": "flags are a set algebra", "statement": "For flags over any enum, ~, &, |, ^ (and the assigning forms) act flag-wise as not/and/or/xor; ~ never sets a flag outside the enum; is_set/is_clear/==/!= answer for all flags; the Boolean-algebra laws hold.", "quantifier": "all enum sizes, all flag sets", "why_tests_cant": "2^n flag sets for every n.", "anchors": ["src/utki/flags.hpp: flags::operator~", "src/utki/flags.hpp: flags::operator&", "src/utki/flags.hpp: flags::operator|", "src/utki/flags.hpp: flags::operator^", "src/utki/flags.hpp: flags::is_set", "src/utki/flags.hpp: flags::is_clear"]}
{"id": "C54", "title": "flags remember the last write", "statement": "After any history of set/clear/invert and bitwise-assignment operations, get(e) is what the last operation affecting e determined; operations on one flag do not disturb others.", "quantifier": "all enum sizes, all histories", "why_tests_cant": "Unbounded histories.", "anchors": ["src/utki/flags.hpp: flags::set", "src/utki/flags.hpp: flags::clear", "src/utki/flags.hpp: flags::get", "src/utki/flags.hpp: flags::invert"]}
{"id": "C55", "title": "signal calls exactly the connected callbacks in order", "statement": "After any history of connect and disconnect (each id disconnected at most once), emit calls exactly the callbacks connected and not disconnected, each once, in order of connection; size()/empty() count them; disconnecting one never affects another.", "quantifier": "all histories, all callback sets", "why_tests_cant": "Unbounded histories.", "anchors": ["src/utki/signal.hpp: signal::connect", "src/utki/signal.hpp: signal::disconnect", "src/utki/signal.hpp: signal::emit", "src/utki/signal.hpp: signal::size"]}
{"id": "C56", "title": "signal emission with callbacks that change the connections", "statement": "During emit a callback may connect new callbacks (which are then called in the same emission) and disconnect already-called or not-yet-called other callbacks (the latter are not called), but a callback that disconnects itself makes emit undefined.", "quantifier": "all finite callback behaviours that connect/disconnect", "why_tests_cant": "All re-entrant schedules.", "anchors": ["src/utki/signal.hpp: signal::emit", "src/utki/signal.hpp: signal::connect", "src/utki/signal.hpp: signal::disconnect"]}
{"id": "C57", "title": "emit passes the given arguments to every callback", "statement": "Every connected callback receives the argument values given to emit.", "quantifier": "all argument types (by value, by reference), all argument values, any number of callbacks", "why_tests_cant": "All argument types and numbers of callbacks.", "anchors": ["src/utki/signal.hpp: signal::emit"]}
{"id": "C58", "title": "spin_lock gives mutual exclusion", "statement": "If every thread unlocks only what it has locked, then in every interleaving at most one thread is between lock() returning and unlock(), and each critical section sees all writes of the previous ones.", "quantifier": "any number of threads, all interleavings, any number of lock/unlock rounds", "why_tests_cant": "All interleavings.", "anchors": ["src/utki/spin_lock.hpp: spin_lock::lock", "src/utki/spin_lock.hpp: spin_lock::unlock"]}
{"id": "C59", "title": "spin_lock makes progress", "statement": "Whenever the lock is free and some thread is in lock(), the next attempt by any such thread acquires it; from every reachable state every waiting thread can still acquire the lock (no deadlock); a failed attempt changes nothing. In every infinite execution with a fair scheduler in which every holder releases the lock, as long as some thread waits the lock is acquired again and again, though not necessarily by that thread: a thread can wait for ever.", "quantifier": "any number of threads, all reachable states, all infinite executions", "why_tests_cant": "All reachable states; what happens eventually cannot be observed by a test that ends.", "anchors": ["src/utki/spin_lock.hpp: spin_lock::lock", "src/utki/spin_lock.hpp: spin_lock::unlock"]}
{"id": "C60", "title": "scope_exit runs its action exactly once, on scope exit, unless released", "statement": "For every program of nested scopes the action of a scope_exit that was not released runs exactly once when its scope ends, in reverse order of construction, whether the scope ends normally or by an exception, and an exception thrown by the action does not escape; after release() it does not run and release returns it.", "quantifier": "all scope programs, all actions (throwing or not, empty std::function)", "why_tests_cant": "All control-flow paths.", "anchors": ["src/utki/utility.hpp: scope_exit"]}
{"id": "C61", "title": "singleton: at most one live instance", "statement": "Over any history of constructing and destroying singleton objects (constructors that throw included) at most one is live; constructing a second throws std::logic_error and does not disturb the first; is_created() is true exactly while one is live and inst() is that object; after destruction a new one can be created.", "quantifier": "all histories", "why_tests_cant": "Unbounded histories.", "anchors": ["src/utki/singleton.hpp: intrusive_singleton", "src/utki/singleton.hpp: singleton"]}
{"id": "C62", "title": "shared_ref is never null and keeps its object alive", "statement": "Over any history of make_shared/copy/assign/convert/move/destroy, every shared_ref that has not been moved from refers to a live object; the object is destroyed exactly when the last reference to it goes; dynamic_reference_cast throws std::bad_cast iff the cast fails and otherwise shares the object.", "quantifier": "all histories", "why_tests_cant": "Unbounded histories.", "anchors": ["src/utki/shared_ref.hpp: shared_ref", "src/utki/shared_ref.hpp: make_shared", "src/utki/shared_ref.hpp: dynamic_reference_cast", "src/utki/shared.hpp: make_shared_from", "src/utki/shared.hpp: make_weak"]}
{"id": "C63", "title": "unique_ref owns exactly one object", "statement": "Over any history of make_unique/move/assign/convert/to_unique_ptr/destroy each object has exactly one owner until it is destroyed, and is destroyed exactly once; a unique_ref not moved from refers to a live object.", "quantifier": "all histories", "why_tests_cant": "Unbounded histories.", "anchors": ["src/utki/unique_ref.hpp: unique_ref", "src/utki/unique_ref.hpp: make_unique"]}
{"id": "C64", "title": "Nested exceptions are all reported, outermost first", "statement": "For any mixture of exceptions nested to any depth, to_string, and what() of an exception thrown by utki::throw_with_nested, mention every exception of the chain with its type name and text, outermost first; current_exception_to_string does so for everything but exceptions thrown by utki::throw_with_nested, of which it gives only the type name. For chains of utki::throw_with_nested calls around an exception not derived from utki::exception, and for chains of std::throw_with_nested calls, the result is exactly one line per exception, each with the indentation prefix.", "quantifier": "all nesting chains of any depth and mixture of exception kinds", "why_tests_cant": "Unbounded nesting.", "anchors": ["src/utki/exception.hpp: stacked_exception", "src/utki/exception.hpp: throw_with_nested", "src/utki/exception.cpp: to_string", "src/utki/exception.cpp: current_exception_to_string", "src/utki/exception.cpp: exception::to_string"]}
{"id": "C65", "title": "next/prev advance by any size_t", "statement": "utki::next(it, n) and prev(it, n) move by exactly n for every size_t n, even above PTRDIFF_MAX, in steps that each fit difference_type, and terminate.", "quantifier": "all n < 2^64, all iterator difference types", "why_tests_cant": "n above 2^63 cannot be exercised on real containers.", "anchors": ["src/utki/utility.hpp: next", "src/utki/utility.hpp: prev"]}
{"id": "C66", "title": "flip_map inverts a map", "statement": "flip_map(m) maps each value of m to a key of m having that value, the smallest such key; flipping twice gives m back iff the values of m are distinct.", "quantifier": "all finite maps over totally ordered keys and values", "why_tests_cant": "All maps.", "anchors": ["src/utki/utility.hpp: flip_map", "src/utki/utility.hpp: flip_pair"]}
{"id": "C67", "title": "contains decides membership", "statement": "contains(c, v) is true iff some element of c (key, for maps) equals v.", "quantifier": "all containers and values", "why_tests_cant": "All containers.", "anchors": ["src/utki/utility.hpp: contains"]}
{"id": "C68", "title": "span access stays inside the span", "statement": "For a span over any buffer, at(i) returns element i or throws std::out_of_range exactly for i >= size; subspan(o, n) with o+n <= size denotes elements o..o+n-1, subspan(o) the rest; front/back/iterators denote the first/last/all elements; nested subspans compose.", "quantifier": "all buffers, all offsets and counts (SIZE_MAX included)", "why_tests_cant": "All offsets and counts.", "anchors": ["src/utki/span.hpp: span::subspan", "src/utki/span.hpp: span::at", "src/utki/span.hpp: span::front", "src/utki/span.hpp: span::back", "src/utki/span.hpp: make_span", "src/utki/span.hpp: make_vector"]}
{"id": "C69", "title": "deep comparison of spans is lexicographic", "statement": "deep_equals is element-wise equality with equal length; deep_less_than is the lexicographic order; the six comparisons form a total order when the elements are totally ordered.", "quantifier": "all pairs and triples of spans", "why_tests_cant": "All pairs.", "anchors": ["src/utki/span.hpp: deep_equals", "src/utki/span.hpp: deep_less_than", "src/utki/span.hpp: deep_greater_than", "src/utki/span.hpp: deep_less_or_equals", "src/utki/span.hpp: deep_greater_or_equals"]}
{"id": "C70", "title": "Enum iteration and enum arrays", "statement": "Iterating enum_iterable visits every enumerator before enum_size exactly once in order, for any underlying type; an enum_array element written through an enumerator is read back through it and does not affect others; zip_with_enum pairs every element with its enumerator.", "quantifier": "all enum sizes and underlying integer types, all write histories", "why_tests_cant": "All sizes and types.", "anchors": ["src/utki/enum_iterable.hpp: enum_iterable", "src/utki/enum_array.hpp: enum_array", "src/utki/enum_array.hpp: enum_array::zip_with_enum"]}
{"id": "C71", "title": "version_duplet order, packing and text", "statement": "to_uint32_t is injective and order preserving: a >= b iff a.to_uint32_t() >= b.to_uint32_t(); >= and < form a total order; major and minor can be recovered from the packed number. operator<< writes both numbers in decimal with a dot between; different versions have different texts, and string_parser reads the numbers back whatever follows that does not continue the number.", "quantifier": "all pairs of versions, all texts that follow", "why_tests_cant": "2^64 pairs.", "anchors": ["src/utki/version.hpp: version_duplet::to_uint32_t", "src/utki/version.hpp: operator>=", "src/utki/version.hpp: operator<", "src/utki/version.hpp: operator<<"]}
{"id": "C72", "title": "sign and integer powers", "statement": "sign(n) is -1 exactly for negative n and 1 otherwise; powN(x), whenever it is defined, is x^N modulo 2^w, and it is always defined for unsigned types of at least 32 bits and for types whose products fit int (8 bit, signed 16 bit); for signed types of at least 32 bits it is x^N, undefined exactly when x^N is not representable; pow2 of uint16_t, computed in int, is undefined exactly above 46340.", "quantifier": "all integer widths and values", "why_tests_cant": "All values.", "anchors": ["src/utki/math.hpp: sign", "src/utki/math.hpp: pow2", "src/utki/math.hpp: pow3", "src/utki/math.hpp: pow4", "src/utki/math.hpp: pow5", "src/utki/math.hpp: pow6"]}
{"id": "C73", "title": "Tick differences survive wrap-around", "statement": "For two readings of get_ticks_ms taken at most 2^32 - 1 ms apart on a monotonic clock the unsigned difference later - earlier is the elapsed milliseconds (to less than one millisecond), even when the counter wraps.", "quantifier": "all clock values and elapsed times", "why_tests_cant": "The counter wraps after 49 days.", "anchors": ["src/utki/time.cpp: get_ticks_ms"]}
{"id": "C74", "title": "Compile-time tables", "statement": "index_of_v<T, variant<...>> is the position of T; offset_sequence adds the offset to every index; uint_size<n>/int_size<n> is the smallest integer type of at least n bytes.", "quantifier": "all type lists, all index sequences, all n from 1 to 8", "why_tests_cant": "Type lists and sequences are unbounded.", "anchors": ["src/utki/variant.hpp: index_of", "src/utki/utility.hpp: offset_sequence", "src/utki/type_traits.hpp: uint_size", "src/utki/type_traits.hpp: int_size"]}
{"id": "C75", "title": "String and byte views are faithful", "statement": "make_string, make_string_view, make_vector, to_uint8_t and to_char preserve the exact sequence of bytes, embedded NULs included; only the const char* forms stop at the first NUL.", "quantifier": "all byte sequences", "why_tests_cant": "All sequences.", "anchors": ["src/utki/string.hpp: make_string", "src/utki/string.hpp: make_string_view", "src/utki/span.hpp: make_span", "src/utki/span.hpp: make_vector", "src/utki/span.hpp: to_uint8_t", "src/utki/span.hpp: to_char"]}
{"id": "C76", "title": "assert_always aborts exactly on false conditions", "statement": "assert_always(true, ...) has no effect; assert_always(false, ...) prints exactly one message (location, error word coloured iff stderr is a terminal, optional user text) and aborts, unless the print function given by the user throws, in which case that exception comes out and nothing is printed; utki::assert does the same in debug builds and nothing otherwise (condition checkers are not even called). On Android the same message goes to the log of the system, up to its first zero byte.", "quantifier": "all conditions, locations, printers and terminal states", "why_tests_cant": "Aborting paths are hard to test; all messages.", "anchors": ["src/utki/debug.cpp: assert_always", "src/utki/debug.hpp: assert"]}
{"id": "C77", "title": "Logging writes exactly the given text", "statement": "log writes exactly what the given function writes, once, to standard output and nothing else (an empty function is allowed and does nothing); logcat writes its arguments one after the other; log_debug, logcat_debug and run_debug do the same in debug builds and have no effect otherwise.", "quantifier": "all functions, including throwing ones, all argument lists", "why_tests_cant": "All argument lists and functions.", "anchors": ["src/utki/log.cpp: log", "src/utki/log.hpp: logcat", "src/utki/debug.hpp: log_debug", "src/utki/debug.hpp: logcat_debug", "src/utki/debug.hpp: run_debug"]}
{"id": "C78", "title": "from_chars for floating point uses the longest number and never reads outside the text", "statement": "For every character range and format utki::from_chars(float|double|long double) returns normally, reads no character outside the range, and reports as used exactly the longest prefix that is a decimal literal of the format ([-]digits[.digits][(e|E)[+-]digits], digits before or after the point; exponent required for scientific, not taken for fixed and hex); if there is none, the longest prefix that is a text for infinity or not-a-number; if there is none of these either, it reports invalid_argument, an end pointer equal to the begin pointer, and stores nothing.", "quantifier": "all character ranges, all four formats, all three types, all rounding modes, all platforms the code distinguishes", "why_tests_cant": "Unbounded texts; the scanner reads eight characters at a time near the end of the range.", "anchors": ["src/utki/string.cpp: from_chars", "src/utki/string.cpp: to_fast_float_format", "src_deps/fast_float/fast_float.h: parse_number_string", "src_deps/fast_float/fast_float.h: parse_infnan", "src_deps/fast_float/fast_float.h: from_chars_advanced"]}
{"id": "C79", "title": "from_chars for floating point rounds correctly", "statement": "The value stored for a decimal literal is the floating-point number of the type nearest to the exact decimal value, ties to the even mantissa, with the sign of the literal (also for zero), independent of the current rounding mode of the floating-point unit; for long double it is the nearest double. This holds for literals of fewer than 2^28 - 1000 digits; beyond that it fails.", "quantifier": "all literals of fewer than 2^28 - 1000 digits with any exponent, all formats, all rounding modes, all platforms the code distinguishes, float, double and long double", "why_tests_cant": "There are infinitely many literals, and the hard cases lie within 2^-64 of the middle between two numbers.", "anchors": ["src/utki/string.cpp: from_chars", "src_deps/fast_float/fast_float.h: compute_float", "src_deps/fast_float/fast_float.h: compute_error", "src_deps/fast_float/fast_float.h: digit_comp", "src_deps/fast_float/fast_float.h: bigint", "src_deps/fast_float/fast_float.h: rounds_to_nearest", "src_deps/fast_float/fast_float.h: from_chars_advanced"]}
{"id": "C80", "title": "from_chars reports exactly the numbers out of range", "statement": "For a decimal literal from_chars reports result_out_of_range exactly if its absolute value is at least the middle between the largest finite number of the type and the next power of two, or is not zero and at most half of the smallest positive number; otherwise it reports success. For long double the range is that of double and nothing is stored out of range.", "quantifier": "all literals of fewer than 2^28 - 1000 digits, all formats, all rounding modes, all platforms the code distinguishes", "why_tests_cant": "The boundaries are single points among infinitely many literals.", "anchors": ["src/utki/string.cpp: from_chars", "src_deps/fast_float/fast_float.h: from_chars_advanced"]}
{"id": "C81", "title": "from_chars recognises infinity and not-a-number", "statement": "A prefix [-]inf, [-]infinity, [-]nan or [-]nan(letters, digits, underscores), in upper or lower case, is converted to the infinity or a not-a-number of that sign with success, and the longest such prefix is used.", "quantifier": "all texts with such a prefix, all formats and types", "why_tests_cant": "All texts and capitalisations.", "anchors": ["src/utki/string.cpp: from_chars", "src_deps/fast_float/fast_float.h: parse_infnan", "src_deps/fast_float/fast_float.h: fastfloat_strncasecmp"]}
{"id": "C82", "title": "read_number for floating-point types", "statement": "read_number<float|double|long double> skips white space, reads the longest literal and leaves the text after it; it returns the nearest number, or 0 if the literal is too large or (without being zero) too small; infinity and not-a-number texts are read as such; it throws std::invalid_argument exactly if neither follows, and then only white space is consumed. No assertion fires.", "quantifier": "all texts (literals of fewer than 2^28 - 1000 digits for the value), all rounding modes, debug and release builds", "why_tests_cant": "Unbounded texts.", "anchors": ["src/utki/string.hpp: string_parser::read_number", "src/utki/string.cpp: from_chars"]}
{"id": "C83", "title": "word_wrap breaks a line only where necessary", "statement": "If a line ends before a word with only spaces between, then this word, together with the spaces, does not fit into the width.", "quantifier": "all texts and all widths greater than zero", "why_tests_cant": "Unbounded texts.", "anchors": ["src/utki/string.cpp: word_wrap"]}
{"id": "C84", "title": "from_chars for floating point gives the same result on every platform and in every rounding mode", "statement": "The result of utki::from_chars(float|double|long double) and of read_number for these types - error code, characters used, value stored - is the same in every rounding mode and on every platform the code distinguishes: 32-bit and 64-bit, with and without 128-bit integers and compiler intrinsics, little- and big-endian, with and without excess precision of floating-point operations. There is no limit on the length of the text.", "quantifier": "all texts, all formats, all pairs of platforms and rounding modes", "why_tests_cant": "The code for other platforms is not compiled where the tests run, and the texts are infinitely many.", "anchors": ["src/utki/string.cpp: from_chars", "src/utki/string.hpp: string_parser::read_number", "src_deps/fast_float/fast_float.h: read8_to_u64", "src_deps/fast_float/fast_float.h: leading_zeroes", "src_deps/fast_float/fast_float.h: full_multiplication", "src_deps/fast_float/fast_float.h: limb", "src_deps/fast_float/fast_float.h: scalar_add", "src_deps/fast_float/fast_float.h: scalar_mul", "src_deps/fast_float/fast_float.h: rounds_to_nearest", "src_deps/fast_float/fast_float.h: min_exponent_fast_path"]}
{"id": "C85", "title": "Angle conversions are accurate", "statement": "pi, two_pi and log_2 are the doubles nearest to the numbers they stand for. For double and float, deg_to_rad(x) differs from x * pi / 180, and rad_to_deg(x) from x * 180 / pi, by at most three units of rounding error relative to the result (plus the smallest number of the type); converting there and back changes the angle by at most seven; both functions are monotone, keep sign, zero, infinity and not-a-number, and map half a turn exactly. For long double the same holds, except that the relative error of a single conversion lies between 2^-55 and 2^-54, because pi is a double. Where the intermediate product is too large for the type the result is infinite, although the exact result may be far from too large. With signed integer types of at least 32 bits pi counts as 3.", "quantifier": "all float, double and long double (80-bit and 128-bit) arguments, all signed integer types of at least 32 bits and their values; arithmetic that rounds to nearest", "why_tests_cant": "All 2^64 doubles; the error is measured against real numbers.", "anchors": ["src/utki/math.hpp: pi", "src/utki/math.hpp: two_pi", "src/utki/math.hpp: log_2", "src/utki/math.hpp: deg_to_rad", "src/utki/math.hpp: rad_to_deg"]}
{"id": "C86", "title": "Sign and powers of floating-point numbers", "statement": "For double, float and long double, powN(x) differs from x^N by at most N units of rounding error relative to the result (plus three times the smallest number of the type, if |x| < 1) when |x|^N is below the limit of the type by more than N such units, and is the infinity with the sign of x^N when |x|^N is above the limit by as much; in between it is one or the other. Infinities and not-a-number are kept, and no power of a number is not-a-number. A number of greater magnitude never has a power of smaller magnitude, odd powers keep the order of all numbers, and the powers of -x are those of x, with the opposite sign if the power is odd. sign(x) is -1 for numbers below zero and for minus infinity, and 1 for all others, both zeros and not-a-number included.", "quantifier": "all float, double and long double (80-bit and 128-bit) arguments; arithmetic that rounds to nearest", "why_tests_cant": "All 2^64 doubles; the error is measured against real numbers.", "anchors": ["src/utki/math.hpp: sign", "src/utki/math.hpp: pow2", "src/utki/math.hpp: pow3", "src/utki/math.hpp: pow4", "src/utki/math.hpp: pow5", "src/utki/math.hpp: pow6"]}
{"id": "C87", "title": "Number of comparisons made by sort", "statement": "utki::sort of n elements calls an irreflexive comparator at most n^2 + n - 2 times, and for every n there are n different numbers for which it calls it exactly that often, so the bound O(n log n) of std::sort, for which it is described as a drop-in replacement, does not hold. A range that is sorted already is left as it is, equivalent elements included, with at most 2 n log2 n comparisons; a range of two or more equivalent elements takes exactly 2 n.", "quantifier": "all ranges of any length, all comparators that always return and are irreflexive (also inconsistent and stateful ones)", "why_tests_cant": "The number of orders of n elements grows as n!; the worst one is not found by random tests.", "anchors": ["src/utki/sort.hpp: sort"]}
{"id": "C88", "title": "demangle gives the readable name and keeps the heap clean", "statement": "With GCC and Clang demangle(type) is the text the ABI demangler gives for the name of the type, or the name itself if the demangler fails for whatever reason; the buffer allocated by the demangler is freed exactly once, also if copying its text throws std::bad_alloc. With MSVC it is the name without a leading class keyword.", "quantifier": "all names, all demanglers that obey the C++ ABI, all allocation failures, all heaps", "why_tests_cant": "Failures of the demangler and of the allocation are not reproducible in tests; a leak is not observable in the result.", "anchors": ["src/utki/debug.cpp: demangle"]}
{"id": "C89", "title": "Type functions give the types their names promise", "statement": "remove_const_reference_t<T> is the only type R that is neither a reference nor const and for which T is R, const R or a reference to one of them; volatile is kept, unlike by std::remove_cvref. remove_const_pointer_t<T> removes one pointer, whatever its own qualifiers, and const from what it points to. is_specialization_of_v<X, T> is true exactly for T = X<...> without const, volatile or reference. is_scoped_enum_v<T> is true exactly for scoped enumerations, const and volatile ones included. type_or_void_t<T> is T::type or void. The mask constants select from every non-negative integer the byte, the nibble or the one bit they are named after.", "quantifier": "all C++ types: classes, enumerations, template specializations, pointers, arrays, functions, references, nested to any depth and with any qualifiers; all non-negative integers for the masks", "why_tests_cant": "There are infinitely many types.", "anchors": ["src/utki/type_traits.hpp: remove_const_reference_t", "src/utki/type_traits.hpp: remove_const_pointer_t", "src/utki/type_traits.hpp: is_specialization_of_v", "src/utki/type_traits.hpp: is_scoped_enum_v", "src/utki/type_traits.hpp: is_type_defined", "src/utki/type_traits.hpp: type_or_void_t", "src/utki/type_traits.hpp: byte_mask", "src/utki/type_traits.hpp: lower_nibble_mask", "src/utki/type_traits.hpp: upper_nibble_mask", "src/utki/type_traits.hpp: bit_0_mask"]}
{"id": "C90", "title": "linq calls each function once per element, in order, and is left at the first exception", "statement": "select, where and group_by call the given function exactly once for each element, from the first to the last, and use what that call returned, even if the function answers differently from call to call. If a call throws, the exception leaves the operation and no further call is made. The collection is then, as in the normal case, unchanged if it was passed as an lvalue; of an rvalue exactly those elements are moved from which were taken by the function (select), selected (where) or grouped (group_by) before.", "quantifier": "all functions with any effects, all collections, all points at which the function throws", "why_tests_cant": "All functions and all points of failure; the order and the number of calls are not visible with pure functions.", "anchors": ["src/utki/linq.hpp: select", "src/utki/linq.hpp: where", "src/utki/linq.hpp: group_by"]}
{"id": "C91", "title": "Release builds do the same as debug builds in which no assertion fails", "statement": "If a call is defined in a debug build and no assertion stops it there, then the release build, in which assertions are compiled out, gives the same result or exception and leaves the objects in the same state. This holds for every function of the library that contains assertions, for histories of calls, and for programs composed of such calls.", "quantifier": "all calls with all arguments of the functions that contain assertions; all histories of the stateful classes", "why_tests_cant": "Tests run one build on chosen inputs; the claim relates the two builds on every input.", "anchors": ["src/utki/debug.hpp: ASSERT", "src/utki/debug.hpp: utki::assert", "src/utki/span.hpp: span", "src/utki/deserializer.hpp: deserializer", "src/utki/tree.hpp: traversal", "src/utki/flags.hpp: flags", "src/utki/string.cpp: word_wrap", "src/utki/shared_ref.hpp: shared_ref", "src/utki/singleton.hpp: singleton"]}
{"id": "C92", "title": "A copy of a signal is independent of it, and its callbacks stay", "statement": "A copy of a signal (also one made by moving) has the same callbacks in the same order; making it calls none of them and leaves the original and all connections as they are. From then on the two are independent: what is connected to, disconnected from, or changed by calls inside the callbacks of one does not show in the other. A connection disconnects exactly one callback, of the signal it was made on, as long as it was not used and that signal was not assigned to or destroyed; with any other signal, in particular a copy, it is not defined. So callbacks that were copied can never be disconnected: destroying such a copy aborts in a debug build.", "quantifier": "all histories of creating, copying, assigning, connecting, disconnecting, emitting and destroying any number of signals, with callbacks that have state and may throw", "why_tests_cant": "Histories are unbounded, and connections used with the wrong signal are undefined behaviour that a test may not notice.", "anchors": ["src/utki/signal.hpp: signal", "src/utki/signal.hpp: connect", "src/utki/signal.hpp: disconnect", "src/utki/signal.hpp: emit"]}
{"id": "C93", "title": "The text of a stacked exception stays as long as it was promised", "statement": "The text what() of an exception thrown by utki::throw_with_nested points to can be read until that exception is destroyed; copies and other exceptions do not disturb it, and nothing is freed twice or leaked. If there is no memory for the text, what() returns a text that can always be read. This is what std::exception promises for what(), which is a const function. It is not so if what() is called again on the same object: the first text is then freed; and two threads that call what() of the same exception object can free the same memory twice.", "quantifier": "all histories of throwing, copying, destroying and asking exceptions for their text, with or without memory; all schedules of any number of threads", "why_tests_cant": "A freed text usually still reads right in a test; histories and schedules are unbounded.", "anchors": ["src/utki/exception.hpp: stacked_exception", "src/utki/exception.hpp: what"]}
{"id": "C94", "title": "The process ends well while a singleton exists", "statement": "When the process ends, each singleton object that still exists is destroyed at most once and as it was made. This is so for variables of main if main returns, for static objects destroyed before the static pointer to the instance, and for objects made by new, unless the build is a debug build with a standard library that clears the pointer first. In all other cases, in particular for the documented use as a variable of main if std::exit is called, the library deletes an object not made by new.", "quantifier": "all histories of creating and destroying singleton objects of all storage durations, both ways of ending the process, both builds, any order of static destruction", "why_tests_cant": "What happens at the end of the process is after the last assertion of a test.", "anchors": ["src/utki/singleton.hpp: intrusive_singleton", "src/utki/singleton.hpp: singleton", "src/utki/singleton.hpp: instance_type"]}
{"id": "C95", "title": "Moving a traversal iterator when memory runs out", "statement": "If memory runs out while a traversal iterator is moved, ++ and -- throw std::bad_alloc and the iterator can be used further: ++ leaves it where it was, -- where it was or at a node on the way. This is so if the request for memory that fails is the first, third, fifth and so on of the call. If it is the second, fourth and so on, the iterator is left broken: dereferencing and comparing it still work, ++ and index() abort in a debug build, and --, is_last_child, insert, insert_after and erase are undefined.", "quantifier": "all forests, all positions, all patterns of failing requests for memory, both builds", "why_tests_cant": "Tests do not run out of memory, let alone at every possible request.", "anchors": ["src/utki/tree.hpp: traversal", "src/utki/tree.hpp: operator++", "src/utki/tree.hpp: operator--"]}
{"id": "C96", "title": "Logging from several threads", "statement": "When several threads log at the same time, nothing that a thread logs is lost, doubled or reordered. Messages of different threads do not mix if each call passes one argument and the stream library writes it at once, or if the threads log while they hold a common lock. Otherwise they can mix: logcat writes its arguments one by one.", "quantifier": "all numbers of threads, all sequences of calls and arguments, all schedules", "why_tests_cant": "A test sees the schedules that happen to occur; messages mix rarely.", "anchors": ["src/utki/log.hpp: logcat", "src/utki/log.hpp: log", "src/utki/log.cpp: log"]}
{"id": "C97", "title": "The work done by traversal iterators", "statement": "A traversal of n nodes, forward or backward, takes work proportional to n however deep the trees are: at most two units for each node, a unit being one call of ++ or -- or one level gone up or down. Between any two positions k apart it takes at most 2 * k units and the difference of the depths. A single ++ or -- takes one unit and one more for each level it goes up (or down).", "quantifier": "all forests, all positions, both builds", "why_tests_cant": "Tests measure the time for some trees; the bound is for trees of every shape.", "anchors": ["src/utki/tree.hpp: traversal", "src/utki/tree.hpp: operator++", "src/utki/tree.hpp: operator--"]}
{"id": "C98", "title": "Which traversal iterators survive changes of the tree", "statement": "insert, insert_after and erase through a valid iterator are defined whether or not a vector gets a new buffer, and the iterator they return is valid: after any sequence of changes it moves, compares, dereferences and gives its index as before. Another iterator stays valid, with the same index path and at a node with the same value, exactly if its path does not lead through the changed list at or after the place of the change (or through it at all, if the elements were moved to a new buffer). An iterator that does not stay valid may still refer to its node. Incrementing the end iterator aborts debug builds and is undefined in release builds, whatever happened before.", "quantifier": "all forests, all sequences of insertions and erasures, all iterators, all reallocations, both builds", "why_tests_cant": "Whether a stale iterator works in a test depends on capacities and on the allocator; a test that passes proves nothing about validity.", "anchors": ["src/utki/tree.hpp: traversal", "src/utki/tree.hpp: insert", "src/utki/tree.hpp: insert_after", "src/utki/tree.hpp: erase", "src/utki/tree.hpp: iterator_internal"]}
{"id": "C99", "title": "Erasing nodes during a traversal", "statement": "The loop that goes from begin() to end(), erases the nodes that satisfy a predicate and continues from the returned iterator, ends after at most as many rounds as there are nodes, uses no invalid iterator, and leaves exactly the nodes for which neither they nor a node above them satisfies the predicate.", "quantifier": "all forests, all predicates, both builds, all histories of the forest", "why_tests_cant": "Erasing the last child at several levels, roots, or everything are different paths through the code; there are infinitely many shapes.", "anchors": ["src/utki/tree.hpp: traversal", "src/utki/tree.hpp: erase", "src/utki/tree.hpp: begin", "src/utki/tree.hpp: end"]}
{"id": "C100", "title": "Lists of numbers survive the text form", "statement": "A list of integers written with to_string (unsigned ones each in any base), or of decimal floating-point literals, with white space and at most one comma between neighbours, is read completely, in order, by the loop that calls read_number and skip_whitespaces_and_comma until the parser is empty; signed numbers need nothing between them before a minus sign. Numbers joined with join and taken apart with split are read back as well.", "quantifier": "all lists of any length, all values, bases and separators, all integer widths and floating-point types, both builds", "why_tests_cant": "What follows a number decides how far it is read; values, bases, separators and neighbours can be combined in infinitely many ways.", "anchors": ["src/utki/string.hpp: string_parser", "src/utki/string.hpp: read_number", "src/utki/string.hpp: skip_whitespaces_and_comma", "src/utki/string.hpp: to_string", "src/utki/string.hpp: split", "src/utki/string.hpp: join", "src/utki/string.cpp: string_parser"]}
{"id": "C101", "title": "References to one object may be used from several threads", "statement": "Whatever threads do with shared_refs and weak pointers to an object (copy, move to another thread, use, lock, destroy), in any interleaving: the object exists as long as there is a reference to it, is destroyed exactly once, only after the last reference, and never gets a reference again; a weak pointer gives a reference if and only if there is one at that moment; and the construction and every use of the object in any thread happen before its destruction.", "quantifier": "all numbers of threads, objects and references, all interleavings of their steps", "why_tests_cant": "Counting races depend on the schedule: a lost update or a missing ordering shows only in rare interleavings, and tests see a few of them.", "anchors": ["src/utki/shared_ref.hpp: shared_ref", "src/utki/shared_ref.hpp: make_shared", "src/utki/shared.hpp: make_weak", "src/utki/shared.hpp: make_shared_from"]}
{"id": "C102", "title": "Wrapping wrapped text again changes nothing", "statement": "If a text is wrapped with word_wrap and the lines, put together with newlines, are wrapped again with the same or a greater width, the same lines result, unless the last line ends with spaces, which are then removed (the line disappears if it has nothing else); a text that does not end with a space has no such last line. A single line wrapped again gives itself without its trailing spaces.", "quantifier": "all texts, all widths greater than zero", "why_tests_cant": "Whether a second wrapping moves a word depends on every interplay of widths, spaces and word lengths.", "anchors": ["src/utki/string.cpp: word_wrap"]}
{"id": "C103", "title": "Insertion and erasure in a tree undo each other", "statement": "Erasing the subtree just inserted with insert or insert_after, with the iterator returned, gives the tree as it was before, and, after insert, the iterator as it was. Inserting an erased subtree again before the iterator that erase returned gives the old tree if and only if the subtree had a next sibling or was a root; else it ends up on a higher level.", "quantifier": "all forests, all positions, all inserted trees", "why_tests_cant": "Undo has to work at every place of every tree; tests try a few.", "anchors": ["src/utki/tree.hpp: traversal", "src/utki/tree.hpp: insert", "src/utki/tree.hpp: insert_after", "src/utki/tree.hpp: erase"]}
{"id": "C104", "title": "Floating-point numbers survive the text form", "statement": "A finite float, double or long double written with max_digits10 significant decimal digits (9 for float, 17 otherwise), in any notation, is read back exactly, bit for bit, by from_chars and by string_parser::read_number, in every rounding mode and on every platform. A number of at most digits10 digits (6, 15), neither out of range nor below the smallest normal number, comes back unchanged when it is read and then written with as many digits, and different ones are read as different numbers. With one digit less, or one more, neither holds.", "quantifier": "all floating-point numbers, all literals of fewer than 2^28 - 1000 digits, all rounding modes and platforms", "why_tests_cant": "There are 2^64 doubles and infinitely many literals; the critical cases are the few where decimal and binary spacing nearly coincide.", "anchors": ["src/utki/string.cpp: from_chars", "src/utki/string.hpp: string_parser::read_number"]}
{"id": "C105", "title": "Reading floating-point numbers keeps order and exact values", "statement": "Of two literals the one that denotes the larger number is never read, by from_chars, as the smaller number, signs, zeros and overflow to infinity included; the same for read_number for numbers in range (others are read as 0). A literal that denotes a number of the type exactly is read as this number, whatever its number of digits (up to 2^28 - 1000).", "quantifier": "all pairs of literals, all formats, types, rounding modes and platforms", "why_tests_cant": "Monotonicity has to hold across the switches between the fast paths and the slow path, which depend on exponent and number of digits.", "anchors": ["src/utki/string.cpp: from_chars", "src/utki/string.hpp: string_parser::read_number"]}
{"id": "C106", "title": "Encoded forms compare like what they encode", "statement": "Unsigned integers serialized with serialize_be compare, as byte strings, like the integers; texts of characters from 1 to 0x7fffffff converted with to_utf8 compare, as strings of unsigned bytes, like the sequences of characters, and are equal only if the texts are. serialize_le does not have this property.", "quantifier": "all integers of all widths, all texts, all places in memory", "why_tests_cant": "Order has to be kept for every pair, in particular where the number of bytes changes.", "anchors": ["src/utki/utility.hpp: serialize_be", "src/utki/utility.hpp: serialize_le", "src/utki/unicode.cpp: to_utf8"]}
{"id": "C107", "title": "Conversions can be done piece by piece", "statement": "to_utf8 of two texts one after the other is to_utf8 of both together. If a text begins with complete UTF-8 forms, to_utf32 gives the characters of this part followed by what to_utf32 gives for the rest, whatever that is. If base64 text begins with an unpadded part of whole groups of four characters, base64_decode gives the bytes of this part followed by those of the rest; encodings of pieces whose sizes are multiples of three may be joined. For a padded first part this is not so.", "quantifier": "all texts, all ways to split them, all memory around them, both builds, signed and unsigned char", "why_tests_cant": "There are infinitely many texts and places to split them, and the state at the split must never leak.", "anchors": ["src/utki/unicode.cpp: to_utf8", "src/utki/unicode.cpp: to_utf32", "src/utki/unicode.hpp: utf8_iterator", "src/utki/base64.cpp: base64_decode"]}
{"id": "C108", "title": "How deep the calls of sort are nested", "statement": "Sorting n elements with a comparator that returns and never says that an element precedes itself, utki::sort calls itself to a depth of at most n (at least 1). This depth is reached: for every n there is an order of n different numbers for which n nested calls are made. For ranges that are already sorted and have no equal neighbours the depth is at most log2(n) + 1.", "quantifier": "all ranges, comparators, lengths", "why_tests_cant": "The worst order is different for every length and has probability 2^(n-1)/n! among all orders; a test on random data never sees it.", "anchors": ["src/utki/sort.hpp: sort", "src/utki/sort.hpp: quick_sort", "src/utki/sort.hpp: partition"]}
{"id": "C109", "title": "The only object, used by threads", "statement": "Threads construct and destroy objects of a singleton class and call is_created() and inst(), at any time. If no two of these operations race (every two, one of which changes the instance, are ordered by synchronisation between the threads, for instance all are done under one mutex) then at most one object lives at any time, a constructor returns exactly if none lives and deletes nothing, inst() gives the object that lives, is_created() says whether one does, and the assertion in the destructor holds. Otherwise: two constructors in two threads can both return, and the second deletes the object of the first; calling inst() while another thread constructs is a data race.", "quantifier": "all numbers of threads, all programs made of these operations, all schedules, both builds", "why_tests_cant": "What goes wrong depends on the schedule: the window between looking at the pointer and storing it is a few instructions wide.", "anchors": ["src/utki/singleton.hpp: singleton", "src/utki/singleton.hpp: singleton::inst", "src/utki/singleton.hpp: singleton::is_created"]}
{"id": "C110", "title": "Text can be split and wrapped piece by piece", "statement": "split(a + d + b, d) is split(a, d) followed by split(b, d); join of two non-empty collections one after the other is the first joined, the delimiter, the second joined; split(a + whitespace + b) is split(a) followed by split(b). word_wrap wraps what follows a newline as if nothing was before it, and what is before, unless it ends with a space, as if nothing followed: paragraphs are wrapped one after the other. A paragraph ending with spaces keeps them unless it is the last one.", "quantifier": "all texts, delimiters, collections, widths greater than zero, both language standards and builds", "why_tests_cant": "The loops carry positions and flags over the place of division; that nothing of this leaks has to hold for every text before it.", "anchors": ["src/utki/string.hpp: split", "src/utki/string.hpp: join", "src/utki/string.cpp: split", "src/utki/string.cpp: word_wrap"]}
{"id": "C111", "title": "The result of sort is determined", "statement": "For a strict weak order that finds only equal elements equivalent, utki::sort leaves exactly what any correct sorting function such as std::sort leaves (so C++17 and C++20 builds do the same), whatever the order of the elements was before. For any strict weak order the elements at each place are equivalent to those that any other correct sorting function leaves there. Elements that are equivalent may change their order: sort is not stable.", "quantifier": "all ranges, all strict weak orders, all results of other correct sorting functions", "why_tests_cant": "It has to hold for all orders of all elements, and for sorting functions of any standard library.", "anchors": ["src/utki/sort.hpp: sort", "src/utki/sort.hpp: quick_sort"]}
{"id": "C112", "title": "A greater width does not give more lines", "statement": "If every space of the text directly follows a character that is neither space nor newline, then word_wrap with a greater width gives at most as many lines as with the smaller one, also if words are longer than the line. With several spaces one after the other a greater width can give more lines.", "quantifier": "all single-spaced texts, all pairs of widths greater than zero, both language standards and builds", "why_tests_cant": "The lines for two widths end at different places from the first line on; the comparison needs all texts and all pairs of widths.", "anchors": ["src/utki/string.cpp: word_wrap"]}
{"id": "C113", "title": "Wrapping gives as few lines as possible, but for one column", "statement": "A text in which every space directly follows a character that is neither space nor newline gives no more lines with word_wrap of a width than any other way of dividing it at spaces and newlines into lines shorter than the width. A division into lines that exactly fill the width can have fewer lines.", "quantifier": "all single-spaced texts, all widths greater than zero, all divisions of the text into lines, both language standards and builds", "why_tests_cant": "The number of divisions of a text grows exponentially with its length; the claim is about all of them.", "anchors": ["src/utki/string.cpp: word_wrap"]}
{"id": "C114", "title": "Several spin locks", "statement": "Threads may hold several spin_locks at a time. Each lock still has at most one holder; memory that is used only under one of the locks has no data races, and a read of it gives the value last written, whatever the other locks are used for. If all threads take locks in a common order there is no deadlock: every thread in lock() can still get the lock. If moreover the scheduler is fair and everybody who does not wait for ever releases what they hold, then whenever a thread waits for a lock, some thread gets this lock or a later one, and if no further calls of lock() are made, all calls return. (A particular thread can starve.) Threads each of which waits for a lock that one of them holds wait for ever; this includes a single thread that locks a lock it already holds: spin_lock is not recursive.", "quantifier": "any number of threads and locks, all assignments of memory to locks, all interleavings, all reachable states and all continuations, all infinite executions", "why_tests_cant": "Deadlocks and missing visibility depend on the schedule and on all locks held by all threads; tests see few schedules.", "anchors": ["src/utki/spin_lock.hpp: spin_lock::lock", "src/utki/spin_lock.hpp: spin_lock::unlock"]}
{"id": "C115", "title": "Spans share the elements they point to", "statement": "A span and its copies and subspans refer to the elements of the container, not to copies of them. All ways to element i of a span (s[i], at, iterators, reverse iterators, front, back) lead to the same element. An assignment through one changes this element of the container and nothing else, and makes no span invalid: every span reads, at each element, the value last assigned to it through whatever span. Element j of s.subspan(o, n) is element o + j of s. Spans without a common element, such as subspans that follow each other, do not influence each other. An assignment through at() with a wrong index throws and changes nothing. make_vector gives a copy that shares no element with any span.", "quantifier": "all containers, all spans into them, all ways of access, all sequences of assignments", "why_tests_cant": "All sequences of assignments through all combinations of overlapping spans.", "anchors": ["src/utki/span.hpp: span", "src/utki/span.hpp: subspan", "src/utki/span.hpp: make_vector", "src/utki/span.hpp: front", "src/utki/span.hpp: back", "src/utki/span.hpp: at"]}
{"id": "C116", "title": "Which functor of overloaded a visit calls", "statement": "A visit of a variant with overloaded{...} that compiles calls one of the functors, which depends only on the type of the alternative, and returns what it returns; a valueless variant makes it throw. The order in which the functors are given does not matter, and functors that cannot be called with any alternative have no influence. If the functors take their argument by value or const reference: a functor for the very type of the value is called with the value itself, whatever others there are; if there is none, the functor with an auto parameter, rather than one to whose type the value could be converted; if there is neither, the one with the best conversion. Two that are equally good do not compile. Functors with auto& or auto&& take over from const T& when the variant is not const.", "quantifier": "all lists of functors with parameters T, T&, const T&, T&&, auto, auto&, const auto&, auto&&, all alternatives, all implicit conversions between types, all values", "why_tests_cant": "All combinations of functors, types and conversions; tests see the few they instantiate.", "anchors": ["src/utki/variant.hpp: overloaded"]}
{"id": "C117", "title": "What UTF-8 decoding makes of arbitrary bytes", "statement": "The result of to_utf32 is determined for every sequence of bytes, well-formed or not. The bytes are cut into sequences: the first byte of each announces its length (its second highest bit is ignored, so that a stray continuation byte starts a sequence), the bytes after it are taken whatever they are and contribute their lower six bits. Decoding ends without a further character at the end, at a sequence with the number 0 and at a sequence that is not complete; a complete sequence with the first byte 0xBE, 0xBF, 0xFE or 0xFF is undefined behaviour. For a NUL-terminated string only a sequence with the number 0 ends it: an incomplete sequence takes the terminator for one of its bytes, and decoding reads on behind it. All characters are from 1 to 0x7fffffff, text after a malformed but complete sequence is decoded correctly, and decoding and encoding again gives the original bytes for exactly the texts in shortest form.", "quantifier": "all spans of bytes, all objects with NUL-terminated or unterminated strings, all lists of complete sequences before a text, all indeterminate contents of the buffers of to_utf8", "why_tests_cant": "All byte strings, in particular malformed ones; tests decode a few well-formed ones.", "anchors": ["src/utki/unicode.hpp: utf8_iterator", "src/utki/unicode.hpp: to_utf32", "src/utki/unicode.hpp: to_utf8", "src/utki/unicode.cpp: utf8_iterator::operator++", "src/utki/unicode.cpp: to_utf32"]}
{"id": "C118", "title": "Several signals whose callbacks use all of them", "statement": "Whatever the callbacks of any number of signals do, during nested emissions of the same and of other signals: create signals, destroy them, connect, disconnect, emit, throw. Each emission calls callbacks of its own signal only, that are connected to it at that moment, each at most once and in the order of their connection; an emission that ends has called all that were connected all the time. An id returned by one signal is never that of another. The behaviour of a program is defined as long as it uses only signals that exist, passes to disconnect only ids that are connected to that signal, and no callback is disconnected and no signal destroyed while that callback of it runs; the only undefined behaviour is one of these three. In a debug build destroying a signal with connected callbacks aborts, and nothing else does.", "quantifier": "all numbers of signals, all callbacks and programs, all nestings of emissions, all states, debug and release builds", "why_tests_cant": "All programs with re-entrant callbacks over several objects; tests use one signal and callbacks that do not touch it.", "anchors": ["src/utki/signal.hpp: signal::connect", "src/utki/signal.hpp: signal::disconnect", "src/utki/signal.hpp: signal::emit", "src/utki/signal.hpp: signal::~signal"]}
{"id": "C119", "title": "The configuration macros tell what the program is compiled for", "statement": "After including config.hpp, with whatever macros the compiler has predefined for a system, a compiler, a processor and a standard: `#if CFG_OS == …`, `CFG_OS_NAME`, `CFG_COMPILER`, `CFG_CPU` and `CFG_ENDIANNESS` are true for exactly the right one of the listed names; CFG_CPP, CFG_CPU_BITS, CFG_CPU_VERSION, CFG_COMPILER_MSVC_TOOLS_V, CFG_COMPILER_VERSION_… and CFG_…_DEPLOYMENT_TARGET have the right numbers and the latter three are defined only where they apply; DLLEXPORT is the export or import attribute with Microsoft's compiler on Windows and empty elsewhere. No other macro is changed, and including the header is never an error.", "quantifier": "all sets of predefined macros that a compilation for one of ten systems with one of four kinds of compilers by any standard may have, all versions of Microsoft's compiler, five processors, both byte orders", "why_tests_cant": "A test runs in the few environments it is compiled in; the header is for all.", "anchors": ["src/utki/config.hpp: CFG_OS", "src/utki/config.hpp: CFG_OS_NAME", "src/utki/config.hpp: CFG_COMPILER", "src/utki/config.hpp: CFG_COMPILER_MSVC_TOOLS_V", "src/utki/config.hpp: CFG_CPP", "src/utki/config.hpp: CFG_CPU", "src/utki/config.hpp: CFG_CPU_BITS", "src/utki/config.hpp: CFG_CPU_VERSION", "src/utki/config.hpp: DLLEXPORT", "src/utki/config.hpp: CFG_ENDIANNESS"]}
{"id": "C120", "title": "Including windows.hpp leaves the macros of the program alone and removes those of windows.h that disturb", "statement": "On Windows, whatever macros the program has and whatever <windows.h> does to them: <windows.h> is included with _WINSOCKAPI_ and _WINSOCK_H defined, so that it does not include <winsock.h>; after windows.hpp these two are as they were before, if <windows.h> left them alone; min, max and DELETE are not defined; every other macro is as <windows.h> left it. On other systems nothing is included and no macro changes.", "quantifier": "all sets of macros of the program, all effects of <windows.h>", "why_tests_cant": "A test includes it in one program, with one version of <windows.h>.", "anchors": ["src/utki/windows.hpp: _WINSOCKAPI_", "src/utki/windows.hpp: _WINSOCK_H", "src/utki/windows.hpp: max", "src/utki/windows.hpp: min", "src/utki/windows.hpp: DELETE"]}
{"id": "C121", "title": "ASSERT tells its condition and its message apart", "statement": "ASSERT with one argument, or two, each of which may contain any commas between parentheses: in a debug build it is a call of utki::assert with exactly these arguments and the place in the source, in a release build it is nothing. The arguments can be told apart in only one way. With three to ten arguments it does not compile, in debug and in release builds alike. UTKI_GET_MACRO with ten names gives the one that belongs to the number of arguments.", "quantifier": "all texts with matching parentheses as arguments, all numbers of arguments", "why_tests_cant": "All texts of arguments.", "anchors": ["src/utki/macros.hpp: UTKI_GET_MACRO", "src/utki/debug.hpp: ASSERT", "src/utki/debug.hpp: ASSERT1", "src/utki/debug.hpp: ASSERT2"]}
{"id": "C122", "title": "An assertion checks what its condition means, whatever its type", "statement": "utki::assert, and ASSERT in a debug build, of a number or truth value checks that it is true, of a pointer, smart pointer or std::function that it is not null, of a function that finds out the condition that it returns true, calling it exactly once; with or without a message, and with C++20 with or without a place. In a release build nothing happens. A number given as the place makes a failing assertion undefined.", "quantifier": "all kinds of types of conditions, all values, functions with any effects, messages and places, both builds, C++17 and C++20", "why_tests_cant": "Which overload is meant depends on the types in each call; tests call some of them, and a function that is never called cannot be told from one that returned true.", "anchors": ["src/utki/debug.hpp: utki::assert", "src/utki/debug.hpp: ASSERT"]}
{"id": "C123", "title": "A span made from another object refers to just its elements and does not allow more", "statement": "If a conversion of a pointer to characters, array, vector, string, string view, span or list in braces to a span compiles, the span has the address and the number of the elements of the object (for pointers, those before the terminating zero), the same type of elements, and does not allow to change what could not be changed before; and all such conversions compile. make_string_view, make_string, to_utf32 and utf8_iterator take all texts and bytes, except changeable strings, for which make_string_view, make_string and utf8_iterator are ambiguous, and pointers to characters in make_string_view. std::is_convertible is wrong in exactly four cases.", "quantifier": "all types of elements, const or not, all kinds of objects as lvalues, const lvalues and rvalues", "why_tests_cant": "What compiles with wrong types cannot be seen by tests that compile.", "anchors": ["src/utki/span.hpp: span", "src/utki/span.hpp: to_uint8_t", "src/utki/span.hpp: to_char", "src/utki/string.hpp: make_string", "src/utki/string.hpp: make_string_view", "src/utki/unicode.hpp: to_utf32", "src/utki/unicode.hpp: utf8_iterator"]}
{"id": "C124", "title": "One linq aggregator used several times", "statement": "An aggregator made by linq from an lvalue can be kept and used any number of times while the variable lives: each chain of operations gives the result for the contents of the variable at that time, changes made meanwhile included, and no chain changes the variable. After the variable is gone, using it is undefined behaviour. linq of an rvalue empties the variable, which does not matter any more afterwards; each chain gives the result for what the chains before left: select with functions taking const references leaves everything, select with other functions and group_by leave moved-from elements, where leaves moved-from the elements it selected, order_by and get leave nothing.", "quantifier": "all collections, all sequences of chains, changes of the variable and its end, all functions, all effects of moving elements", "why_tests_cant": "Tests use an aggregator once, in one expression; what later uses give depends on all earlier ones.", "anchors": ["src/utki/linq.hpp: linq", "src/utki/linq.hpp: linq_collection_aggregator"]}
{"id": "C125", "title": "A visit of several variants calls the most specific functor", "statement": "std::visit(overloaded{...}, variants...) that compiles calls, if all variants hold values, exactly one of the functors, chosen by the types of the values only, with the values in the order of the variants; if one holds none it throws. The order in which the functors are given does not matter. If any functor is declared for the types held, each parameter for the type itself or for any type, then the most specific of these is called with the values unconverted, and if none of them is the most specific one the program does not compile; in particular the functor for just these types is called if there is one. Otherwise, without generic functors, the one called has the best conversions.", "quantifier": "all numbers of variants, lists of alternatives, functors with any numbers of parameters of all types, all implicit conversions, all values", "why_tests_cant": "The number of combinations grows exponentially with the number of variants, and which functor is called depends on all others.", "anchors": ["src/utki/variant.hpp: overloaded"]}
{"id": "C126", "title": "Objects that refer to each other go when nothing leads to them", "statement": "After any history, an object exists as long as a chain of shared_refs or shared_ptrs leads from a variable of the program to it, through the members of other objects. An object that exists although no such chain leads to it is part of a ring of objects that refer to each other, or such a ring refers to it. So without rings (weak pointers do not count) exactly the objects to which a chain leads exist, and when the last variable is gone all objects have been destroyed, each once.", "quantifier": "all histories of operations on references, pointers and objects with any members, in all builds", "why_tests_cant": "A leak depends on the whole graph of objects and on the history that made it; tests make few graphs.", "anchors": ["src/utki/shared_ref.hpp: shared_ref", "src/utki/shared.hpp: make_weak"]}
{"id": "C127", "title": "References compare as their objects do", "statement": "After any history, comparing references that were not moved from with < or ==, with each other or with an object, gives what the operator of the objects gives for the objects referred to, whether these are the same object or not, and changes nothing. A std::set of references is therefore ordered by the values of the objects, has for each value the first reference inserted with it, and finds a reference exactly if one to an equal value was inserted, as long as the objects are not changed. An exception of the objects' operator ends the program; comparing a reference that was moved from ends a debug build and is undefined in a release build.", "quantifier": "all histories of shared and unique references, all operators of the objects that are strict weak orders, all sequences of insertions", "why_tests_cant": "That a set finds what was inserted depends on the values of all elements and on the history of the references.", "anchors": ["src/utki/shared_ref.hpp: shared_ref::operator<", "src/utki/shared_ref.hpp: shared_ref::operator==", "src/utki/unique_ref.hpp: unique_ref::operator<", "src/utki/unique_ref.hpp: unique_ref::operator=="]}
{"id": "C128", "title": "When a singleton is one across shared libraries", "statement": "In a process of several modules (executable and libraries), whatever is done in whichever module: on ELF systems, if all modules export their copies of the variable (the default) and were loaded with the program or globally, or if the symbol is unique as GCC makes it, at most one object is live, construction in any module fails while one is, and is_created() and inst() in any module tell of the object constructed in any other. The same holds on every platform for intrusive_singleton with its variable defined in one module. Otherwise it does not: on Windows, with hidden visibility, or with libraries loaded locally, an object constructed in one module does not exist for the other, where inst() fails and a second object can be constructed.", "quantifier": "all lists of modules with all visibilities and orders of loading, all histories of operations in all modules, both kinds of platform, debug and release builds", "why_tests_cant": "The behaviour depends on how each library was compiled and loaded; the test of the project has one library and is switched off on Windows, where it fails.", "anchors": ["src/utki/singleton.hpp: singleton", "src/utki/singleton.hpp: intrusive_singleton::inst", "src/utki/singleton.hpp: intrusive_singleton::is_created"]}
{"id": "C129", "title": "Deleting through destructable destroys the whole object", "statement": "Deleting an object of any class derived from destructable, directly or through other classes and whatever other bases it has, through a pointer to destructable or to any class between, destroys the whole object: the destructor of every class in the hierarchy and the destructor of every member run exactly once, those of a class before those of its bases, the later declared before the earlier. Through a base without a virtual destructor it would be undefined.", "quantifier": "all class hierarchies without virtual bases of any depth and width, all numbers of members, all pointers to subobjects", "why_tests_cant": "Tests have a few hierarchies.", "anchors": ["src/utki/destructable.hpp: destructable"]}
{"id": "C130", "title": "Angles and powers with excess precision", "statement": "On platforms that compute with float in the format of double, or with both in the 80-bit format: deg_to_rad gives a finite result for every finite argument, and deg_to_rad and rad_to_deg differ from the exact results by at most 1.6 units of relative rounding error and the smallest positive number; rad_to_deg gives an infinity, with the sign of the argument, where the exact result is clearly too large and none where it is clearly not. Zeros, infinities, not-a-numbers and signs are kept. The powers are as near to the exact ones as without excess precision, and for float they are the same in every bit.", "quantifier": "all arithmetics that round to nearest, the three combinations of formats, all numbers", "why_tests_cant": "Tests run on a platform without excess precision, with a few numbers.", "anchors": ["src/utki/math.hpp: deg_to_rad", "src/utki/math.hpp: rad_to_deg", "src/utki/math.hpp: pow2", "src/utki/math.hpp: pow3", "src/utki/math.hpp: pow4", "src/utki/math.hpp: pow5", "src/utki/math.hpp: pow6"]}
{"id": "C131", "title": "What braced lists mean for a tree", "statement": "A list in braces stands for a tree node without a value of its own that has the elements as children: a value is a leaf, a list inside the list is again such a node, {} is a leaf with the default value; tree(v, {...}) is a node with the value v and the children in the list. This holds to any depth of nesting for value types that are classes and expressions of just this type. It does not hold generally: for scalar types the value of a node made by a list of children is indeterminate, so that comparing it, and nesting it in another list, is undefined; an expression that still has to be converted, like a string literal, makes {\"a\"} a leaf and {\"a\", {...}} a node with that value, and does not compile in longer lists; a list of one tree is that tree or its parent depending on the compiler; tree({v}) is a leaf but tree({v, w}) a node with two children.", "quantifier": "all nested lists of values, trees and containers, of any depth and length; value types that are scalars or classes; compilers with and without the rule of CWG 1467 for all classes", "why_tests_cant": "Tests have a few lists, and cannot see that a value is indeterminate.", "anchors": ["src/utki/tree.hpp: tree"]}
{"id": "C132", "title": "Copying and changing trees when memory runs out", "statement": "Copying a tree either gives a tree with the same values and shape that shares no memory with the original, or throws std::bad_alloc and gives back all memory it had requested. It requests memory exactly once for every node with children, and as often as copying the values does. Destroying a tree gives back all its memory, each block once. insert, insert_after (of a tree to be moved or copied) and erase either succeed, with the documented result, or throw std::bad_alloc and leave the trees, the tree passed and the iterator passed as they were, with no memory lost. erase requests memory only for the copy of the iterator passed to it.", "quantifier": "all forests, trees with values that own any number of blocks of memory, valid iterators passed as copies or moved, capacities of vectors, patterns of failing requests, both orders of evaluation of the arguments", "why_tests_cant": "Tests do not run out of memory, let alone at every possible request, and do not account for every block.", "anchors": ["src/utki/tree.hpp: tree", "src/utki/tree.hpp: insert", "src/utki/tree.hpp: insert_after", "src/utki/tree.hpp: erase"]}
{"id": "C133", "title": "Signals when memory runs out", "statement": "connect either adds the callback as the last one, without changing the others, or throws std::bad_alloc and leaves the signal as it was, with no memory lost. disconnect and the destruction of a signal request no memory and give back all that was kept for the callbacks, once. A copy of a signal is complete and has memory of its own, or std::bad_alloc is thrown and nothing is left of it. Assigning a signal to another is not all or nothing: if memory runs out, no memory is lost and as many callbacks are connected as before, but the first of them have been replaced.", "quantifier": "all signals, callbacks that own any number of blocks of memory, passed as copies or moved, patterns of failing requests, both builds", "why_tests_cant": "Tests do not run out of memory, let alone at every possible request, and do not account for every block.", "anchors": ["src/utki/signal.hpp: signal", "src/utki/signal.hpp: connect", "src/utki/signal.hpp: disconnect"]}
{"id": "C134", "title": "sort of elements whose copies and moves may throw", "statement": "Whichever comparison, copy or move of an element throws, or copy of the comparator, the exception leaves sort, all objects that sort made are destroyed, nothing outside of the range is touched and no element moved from is looked at. All elements are still in the range, in some order, unless an assignment of elements threw: then one of them may be lost and a moved-from object is in its place. If sort returns, the range is sorted. Sorting n elements copies elements at most 5 (n - 1) times and moves them at most 3 n (n - 1) / 2 times.", "quantifier": "all elements, comparators, ranges inside of larger blocks, and any behaviour of copies, moves and comparisons, exceptions at any point included", "why_tests_cant": "An exception can come from any of the calls; tests throw at a few of them, and cannot bound the number of copies for all inputs and comparators.", "anchors": ["src/utki/sort.hpp: sort", "src/utki/sort.hpp: quick_sort", "src/utki/sort.hpp: partition", "src/utki/sort.hpp: iter_swap", "src/utki/sort.hpp: find_if_not"]}
{"id": "C135", "title": "linq when memory runs out", "statement": "If a request for memory fails during where, group_by, select or order_by, std::bad_alloc leaves the operation and all memory it had requested is given back, while the other memory stays in use: nothing leaks and nothing is given back twice. An lvalue collection is then as it was; of an rvalue the elements up to some point have been moved away by where and group_by and are lost, the others are as they were. Without a failed request the operations give what they should. order_by of an rvalue requests no memory, and select requests the memory for all its results at once, before the function is called for the first time.", "quantifier": "all collections, element types with any memory of their own, functions, growth factors of vectors, and all patterns of failing requests", "why_tests_cant": "Any request may fail; tests do not make allocation fail at all.", "anchors": ["src/utki/linq.hpp: where", "src/utki/linq.hpp: group_by", "src/utki/linq.hpp: select", "src/utki/linq.hpp: order_by"]}
{"id": "C136", "title": "Assigning trees", "statement": "After `a = b` the tree a is b and b is as it was, and the memory of the old children of a that is not used any more has been given back; after `a = std::move(b)` the tree a is what b was, with its nodes where they were, b is a leaf, and all old children of a have been destroyed. Nothing else changes. This holds for trees of which neither is a part of the other, also if both are nodes of one tree. `a = a` changes nothing; `a = std::move(a)` loses the children. If b is a part of a, `a = std::move(b)` is right with libstdc++ and undefined with libc++, and `a = b` is right with libstdc++ only if the vector of children of a has to grow. By way of a copy, `tree t(b); a = std::move(t);`, it is always right.", "quantifier": "all trees, places of both trees, sizes and capacities of the vectors of children, and both ways standard libraries implement the assignment of vectors", "why_tests_cant": "Whether memory is read after it has been given back depends on capacities and on where in the tree the other tree is; a test that reads freed memory may well pass.", "anchors": ["src/utki/tree.hpp: tree", "src/utki/tree.hpp: operator="]}
{"id": "C137", "title": "How deep calls are nested for trees", "statement": "Copying and destroying a tree need room on the stack for just as many nested calls as the tree has levels, whatever the number of its nodes; a stack with less room overflows. Comparing two trees needs at most as many as the lower one has levels, and just as many if they are equal; assigning a tree at most one more than the higher of both has levels. Moving a tree to a leaf needs one call. A tree of n nodes can have n levels.", "quantifier": "all trees, and all sizes of the stack", "why_tests_cant": "How deep a tree may be depends on the size of the stack; a test builds small trees, and breadth does not show what depth does.", "anchors": ["src/utki/tree.hpp: tree", "src/utki/tree.hpp: operator=", "src/utki/tree.hpp: operator=="]}
{"id": "C138", "title": "Deleting objects with virtual bases", "statement": "An object whose class is derived from destructable, virtually or not, directly or over several ways, can be deleted through a pointer to destructable or to any class between: every subobject and every member is destroyed exactly once, a virtual base once however many classes have it, bodies of destructors before members, members and bases in reverse order, everything of a class before its bases and its virtual bases. If all classes are derived from destructable virtually the object has one destructable. Through a pointer to a base without a virtual destructor deletion is undefined.", "quantifier": "all classes with any bases, virtual or not, any numbers of members, and pointers to all subobjects", "why_tests_cant": "The order and the sharing depend on the whole hierarchy of classes; there are unboundedly many.", "anchors": ["src/utki/destructable.hpp: destructable"]}
{"id": "C139", "title": "Views that are kept", "statement": "A view refers to its collections and can be iterated over later and repeatedly, with a body that has any effects but does not change the number of elements. A loop over zip(c1, ..., cn) calls the body with references to the first elements, the second elements and so on, just as many times as the least size the collections had when the view was made, also when the same collection is given several times and when collections have grown since; if one has shrunk below that it is undefined. Loops over skip_front<n>(c) and reverse(c) go over the elements the collection has when the loop begins. An exception of the body ends the loop.", "quantifier": "all collections and sizes, all histories between the making of the view and the loop, all bodies that keep the sizes", "why_tests_cant": "Which elements are visited depends on the sizes at two moments and on the effects of the body.", "anchors": ["src/utki/views.hpp: zip", "src/utki/views.hpp: skip_front", "src/utki/views.hpp: reverse"]}
{"id": "C140", "title": "Comparisons that throw or have effects", "statement": "The comparison functions call the operators of the user's types in a fixed order and no more than needed. operator==(tree, tree) compares the values of nodes with the same path, in pre-order, up to the first difference of values or numbers of children, and terminates the program if a comparison throws. deep_equals compares no elements of spans of different sizes and otherwise those with the same index up to the first that differ; deep_less_than asks for each common index whether the left is less and then whether the right is less, up to the first yes; contains compares in order up to the first equal element. Out of these an exception of the operator passes, and nothing further is called. With operators without effects the results are those of C44, C67 and C69.", "quantifier": "all trees, spans and containers, all operators with any effects and exceptions", "why_tests_cant": "Which calls are made depends on the answers of the operators; the place of an exception is arbitrary.", "anchors": ["src/utki/tree.hpp: tree", "src/utki/span.hpp: deep_equals", "src/utki/span.hpp: deep_less_than", "src/utki/span.hpp: deep_greater_than", "src/utki/span.hpp: deep_less_or_equals", "src/utki/span.hpp: deep_greater_or_equals", "src/utki/utility.hpp: contains"]}
{"id": "C141", "title": "Making iterators and reading indices when memory runs out", "statement": "begin(), end(), make_iterator, index() and operator[] of a traversal, whatever requests for memory fail, either end as they would with memory without limit (with the same result, std::out_of_range included), or throw std::bad_alloc after a request has failed. The result owns its memory and, apart from that, just the memory that was in use before is in use; an exception leaves nothing in use that was not before. This also holds when the index is given as a list in braces.", "quantifier": "all forests, indices and iterators, all growth policies of vectors, all patterns of failing requests", "why_tests_cant": "Every single request for memory may be the one that fails; there are unboundedly many patterns.", "anchors": ["src/utki/tree.hpp: traversal", "src/utki/tree.hpp: make_iterator", "src/utki/tree.hpp: index"]}
{"id": "C142", "title": "Lists of arguments and memory of make_string", "statement": "Whatever vsnprintf does and whichever requests for memory fail, make_string and make_string_va_list return the text or throw what they would throw with memory without limit, or throw std::bad_alloc after a request has failed. The string returned owns its memory and nothing else stays in use; an exception leaves no memory in use. Each va_list that is started or copied is ended just once and none is used for formatting twice, and the va_list given to make_string_va_list can be used again by the caller. A short text needs no memory at all.", "quantifier": "all outcomes of vsnprintf, lengths of texts, sizes kept within string objects, growth policies and patterns of failing requests, in debug and release builds", "why_tests_cant": "Every single request may fail, errors of vsnprintf depend on the locale, and a list that is not ended has no effect that could be observed on most platforms.", "anchors": ["src/utki/string.cpp: make_string", "src/utki/string.cpp: make_string_va_list"]}
{"id": "C143", "title": "Visiting several variants by references", "statement": "A visit of any number of variants with functors whose parameters are of the forms T, T&, const T&, T&&, or the same with auto, if it compiles, calls one functor that depends only on the types of the values and on how the variants are given (lvalue, const lvalue, rvalue), not on the order of the functors. The functor gets the values themselves, or what they are converted to. Every variant holds the same alternative afterwards; its value is what the functor left if the parameter is a reference by which it can be changed, what moving leaves if it was moved into a parameter by value, and as before otherwise; a const variant never changes. A variant without a value makes the visit throw std::bad_variant_access and change nothing. A functor for T& and one for const T& can be used together, the first is called if all variants can be changed; functors that can change another one of two variants each are ambiguous. With one variant it is the functor of C116, with parameters by value and const reference the one of C125.", "quantifier": "all numbers of variants, alternatives, functors, kinds of parameters, conversions between types, values and effects of functors on their parameters", "why_tests_cant": "The choice depends on all functors and all combinations of alternatives at once; there are infinitely many sets of functors.", "anchors": ["src/utki/variant.hpp: overloaded"]}
{"id": "C144", "title": "Iterators of traversals that point nowhere", "statement": "A default-constructed iterator of a traversal has depth zero and an empty index, and is the one that make_iterator gives for an empty index and for no other. It is equal to itself, different from every iterator at a position of a traversal (end included) and precedes all of them; no comparison with it is undefined. Stepping back gives it at begin() and at no other position. Moving it aborts debug builds and is undefined in release builds, and never asks for memory; what it points to cannot be used.", "quantifier": "all forests, all positions in them, all indices", "why_tests_cant": "All forests and positions; a test of an undefined use may well pass.", "anchors": ["src/utki/tree.hpp: traversal::iterator_internal"]}
{"id": "C145", "title": "Views of lists whose elements come and go during the loop", "statement": "Let the collections be such that iterators to other elements stay valid when elements are inserted and erased (std::list, sets, maps). A loop over skip_front<n>(c) or over a zip view visits just the elements, or tuples, that there were before the loop, in order, if its body changes only what is in front of the elements it is called with. A loop over reverse(c) visits the elements there were, the last first, if its body keeps the element it is called with, those in front of it and the one next to it. A body that erases the element it is called with makes a loop over skip_front undefined; in a loop over reverse it makes the element in front of it be left out.", "quantifier": "all collections and states, all bodies of loops with any effects", "why_tests_cant": "All collections and all changes during the loop; a test of an undefined use may well pass.", "anchors": ["src/utki/views.hpp: skip_front", "src/utki/views.hpp: reverse", "src/utki/views.hpp: zip"]}
{"id": "C146", "title": "Logging and assertions when the standard streams fail", "statement": "The device behind std::cout or std::cerr may fail at any time, after any part of the text. What log and logcat leave on the device is in order, without gaps and repetitions, and if the stream is usable afterwards all text is there. Unless the program asked the stream for exceptions log returns in any case, and after a failure all further text is lost until the program clears the state of the stream; if it asked for exceptions log writes everything or throws. A failed assertion never returns, whatever happens to std::cerr: it aborts, with the whole message or a beginning of it written. Only if the program asked std::cerr for exceptions and the device fails it throws instead.", "quantifier": "all printing functions and texts, all failures of the devices, all states of the streams", "why_tests_cant": "Devices fail at arbitrary points; tests write to devices that do not fail.", "anchors": ["src/utki/log.hpp: logcat", "src/utki/log.hpp: log", "src/utki/log.cpp: log", "src/utki/debug.cpp: assert_always"]}
{"id": "C147", "title": "The format of the standard streams in logs and assertions", "statement": "Texts and integers given to logcat are printed one after the other in the base that std::cout has then, and leave its format as it is, so that such calls do not influence each other. Manipulators among the arguments (the base, the width, the fill character and its side) stay in force for later calls: several calls print the same as one call with all arguments. On Android every call starts with the format of a new stream, so that the same calls may print different texts there. The message of a failed assertion does not depend on the formats of the streams, so that line numbers are always decimal; only the width of std::cerr applies, to the message as a whole.", "quantifier": "all arguments and manipulators, all formats of the streams, all sequences of calls", "why_tests_cant": "Formats come from anything printed before, in any order.", "anchors": ["src/utki/log.hpp: logcat", "src/utki/log.hpp: log", "src/utki/log.cpp: log", "src/utki/debug.cpp: assert_always"]}
{"id": "C148", "title": "Printing versions, flags and spans to streams with a format, and cat", "statement": "A version printed to a stream with the base ten and no width is its two numbers with a dot between, and the stream is as before. A width applies to the major number alone, so that the text is longer than the width and versions do not line up; in another base the text may be that of another version. Flags are printed as zeros and ones in every base and a width applies to all of them together. The elements of a span are printed in order with nothing between them; a width applies to the first one alone, and an empty span leaves it to the next output. cat gives the concatenation of its arguments with numbers in decimal, so that it can be split and nested; it does not depend on the formats of other streams, and manipulators apply only to later arguments of the same call.", "quantifier": "all versions, flags, spans and arguments, all formats of the streams", "why_tests_cant": "Formats come from anything printed before; the values are arbitrary.", "anchors": ["src/utki/version.hpp: operator<<", "src/utki/flags.hpp: operator<<", "src/utki/span.hpp: operator<<", "src/utki/string.hpp: cat"]}
