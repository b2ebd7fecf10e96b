{"id": "C01", "title": "Object key order is a strict total order", "statement": "The ordering the library uses for object keys (in dynamic objects, when building finalized objects, when sorting projection keys) is a strict total order on byte strings: irreflexive, transitive, asymmetric, and any two different keys are comparable. A shorter key always precedes a longer one; keys of equal length are ordered by unsigned byte value.", "quantifier": "for all byte strings a, b, c of any length and content", "why_tests_cant": "A broken comparator misbehaves only on particular triples of keys; std::map/std::sort have undefined behaviour if the order is not a strict weak order, and no finite set of triples covers it.", "anchors": ["include/dart/common.tcc: dart_comparator::operator()", "include/dart/common.h: packet_fields, dart_comparator"]}
{"id": "C02", "title": "Lookup in a finalized object finds exactly the present keys", "statement": "For a finalized object, looking up a key (get, at, has_key) succeeds exactly if the object was built with that key, and then yields the value stored under it. A hit is never for a different key. (The code only meets this for keys that contain no NUL byte, whose first two bytes are below 0x80, and when a 255-byte lookup key is not searched among longer keys; outside that the lookup can miss keys that are present.)", "quantifier": "for all objects (any number of fields, any keys and values) and all lookup keys", "why_tests_cant": "The binary search uses truncated two-byte prefixes, a saturated length and signed characters; failures need particular key sets, lengths and positions in the table that no finite suite enumerates.", "anchors": ["include/dart/object.tcc: object::get_key, get_value_impl, get_value, at_value", "include/dart/common.tcc: prefix_entry::prefix_compare, compare_impl, prefix_compare_impl, prefix_entry::prefix_entry", "include/dart/buffer/object.tcc: get, at, has_key"]}
{"id": "C03", "title": "Finalize then definalize returns the same value", "statement": "Finalizing any dynamic object (heap to contiguous buffer) and converting the result back yields a dynamic value equal to the original: same keys, same order, same nested structure, same strings (including embedded NUL bytes), same 64-bit integers, the same double bit patterns, the same booleans and nulls.", "quantifier": "for all well-formed dynamic objects of any depth, width and content whose size bound does not exceed 2^32-1", "why_tests_cant": "The encoding interacts alignment, type narrowing, offsets and nesting; the space of nested values is infinite.", "anchors": ["include/dart/heap/detail.tcc: layout, upper_bound", "include/dart/object.tcc: object(packet_fields const*)", "include/dart/array.tcc: array(packet_elements const*)", "include/dart/conversion_traits.h: api_converter"]}
{"id": "C04", "title": "Finalize never writes outside its allocation", "statement": "When an object is finalized the library allocates a precomputed number of bytes and then writes the encoding. No write ever falls outside the allocation; either the encoding fits or std::length_error is thrown before any byte is written. Every 32-bit size/offset stored in the encoding is the true value, not a truncated one.", "quantifier": "for all dynamic objects of any depth, width and content", "why_tests_cant": "The size bound and the writer are separate recursive functions; an off-by-one in padding shows up only for specific combinations of key lengths, value types and nesting, and overflows are silent.", "anchors": ["include/dart/heap/detail.tcc: upper_bound, layout", "include/dart/conversion_traits.h: api_converter<basic_heap, basic_buffer>", "include/dart/object.tcc: object ctor", "include/dart/array.tcc: array ctor"]}
{"id": "C05", "title": "Every finalized element is naturally aligned", "statement": "In a finalized object, whenever the allocation itself is 8-byte aligned, every key, nested aggregate, string and number reachable by iteration or lookup starts at an address aligned for its type, and the total size is a multiple of 8 so that finalized objects can be packed back to back.", "quantifier": "for all dynamic objects of any shape and every element at any depth", "why_tests_cant": "Misalignment depends on cumulative lengths of preceding keys and values.", "anchors": ["include/dart/common.h: align_pointer, pad_bytes, alignment_of", "include/dart/object.tcc: object ctor", "include/dart/array.tcc: array ctor"]}
{"id": "C06", "title": "Finalized bytes are canonical", "statement": "Finalizing is deterministic and injective: two dynamic objects have byte-identical finalized forms if and only if they are the same value (same keys, nested values, bit-identical doubles). In particular byte comparison of finalized objects decides structural equality, whatever order the fields were inserted in.", "quantifier": "for all pairs of dynamic objects", "why_tests_cant": "Requires every padding byte to be determined by the value, for all pairs of values.", "anchors": ["include/dart/conversion_traits.h: typed_compare<basic_buffer>, api_converter", "include/dart/heap/detail.tcc: layout", "include/dart/common.h: table_layout"]}
{"id": "C07", "title": "Validation of untrusted bytes never reads out of bounds and terminates", "statement": "Checking an arbitrary byte buffer of n bytes for validity terminates and never reads a byte at or beyond position n, whatever the bytes are (truncated, corrupted, hostile offsets, cyclic offsets).", "quantifier": "for all byte strings of any length and all root types", "why_tests_cant": "Hostile inputs are unbounded; fuzzing samples them only.", "anchors": ["include/dart/object.tcc: object::is_valid", "include/dart/array.tcc: array::is_valid", "include/dart/string.tcc: basic_string::is_valid", "include/dart/primitive.tcc: primitive::is_valid", "include/dart/common.h: valid_buffer, generic_deref", "include/dart.h: is_valid, validate"]}
{"id": "C08", "title": "A validated buffer is memory safe to read", "statement": "If an n-byte buffer passes validation, then every read-only operation (get, at, has_key, iteration over keys and values at any depth, size, string access, integer/decimal access, full conversion to a dynamic value) stays within those n bytes and succeeds.", "quantifier": "for all byte strings that pass validation, all lookup keys, all access paths", "why_tests_cant": "This is the security contract of validation; counter-examples are specific byte patterns.", "anchors": ["include/dart/object.tcc: get_key, load_key, load_value, get_value_impl", "include/dart/array.tcc: get_elem_impl", "include/dart/string.tcc: get_strv", "include/dart/common.h: find_sizeof, integer_deref, decimal_deref"]}
{"id": "C09", "title": "The validator accepts what the library itself produces", "statement": "Every buffer produced by finalizing a dynamic object passes validation. (The code rejects some buffers containing nulls, because a null occupies zero bytes and the next element may share its address; the theorem is for values in which no aggregate holds a null that is followed by another element, and a counterexample is proved.)", "quantifier": "for all dynamic objects", "why_tests_cant": "Whether a null is rejected depends on exact layout parity of preceding keys and values.", "anchors": ["include/dart/object.tcc: object::is_valid", "include/dart/array.tcc: array::is_valid", "include/dart/heap/detail.tcc: layout"]}
{"id": "C10", "title": "Validation depends only on the claimed bytes", "statement": "The validation verdict for an n-byte buffer depends only on those n bytes, appending trailing bytes never turns a valid object invalid, and a valid object cut anywhere below its recorded size is reported invalid.", "quantifier": "for all byte strings, all suffixes and all truncation points", "why_tests_cant": "Quantifies over all inputs and all truncation points.", "anchors": ["include/dart/object.tcc: object::is_valid", "include/dart/common.h: valid_buffer"]}
{"id": "C11", "title": "Injecting into a finalized object is right-biased union", "statement": "Injecting pairs into a finalized object yields the finalized form of the union of both field sets where injected values win on equal keys, with all keys sorted and no duplicates; the result is byte-identical to finalizing the merged dynamic object.", "quantifier": "for all finalized base and incoming objects (any number and interleaving of keys)", "why_tests_cant": "The merge is a hand-written nested double loop over two sorted sequences plus an in-place relocation; correctness depends on all interleavings.", "anchors": ["include/dart/common.tcc: buffer_builder::each_unique_pair, merge_buffers", "include/dart/object.tcc: object(object const*, object const*), realign", "include/dart/buffer/object.tcc: inject"]}
{"id": "C12", "title": "Injecting into a finalized object never writes outside the allocation", "statement": "The merged object fits the memory allocated for it (the sum of the two input sizes). (False in general: key alignment padding changes when fields interleave, and a concrete overflow is proved. Safe cases are proved.)", "quantifier": "for all pairs of finalized objects", "why_tests_cant": "The overflow needs specific sizes and interleavings of 8-byte values; random tests with short keys do not hit it.", "anchors": ["include/dart/common.tcc: buffer_builder::merge_buffers", "include/dart/object.tcc: object(object const*, object const*)"]}
{"id": "C13", "title": "Projecting a finalized object keeps exactly the requested fields", "statement": "Projecting a finalized object on a set of keys yields the finalized form of the object restricted to the requested keys that are present: no other fields, no missing fields, duplicates in the request are harmless, order of the request is irrelevant.", "quantifier": "for all finalized objects and all lists of requested keys", "why_tests_cant": "Quantifies over all objects and request lists including duplicates and absent keys.", "anchors": ["include/dart/common.tcc: buffer_builder::project_each_pair, project_keys", "include/dart/object.tcc: object(object const*, span<Key const*>)", "include/dart/common.h: sort_spannable"]}
{"id": "C14", "title": "Projecting a finalized object never writes outside the allocation", "statement": "The projection fits the memory allocated for it (the size of the base object). (True if no more keys are requested than the object has fields; with more requested keys than fields the code writes beyond the allocation, which is proved by a concrete case.)", "quantifier": "for all finalized objects and all lists of requested keys", "why_tests_cant": "Only requests longer than the object overflow; silent heap corruption.", "anchors": ["include/dart/common.tcc: buffer_builder::project_keys", "include/dart/object.tcc: object(object const*, span<Key const*>), realign"]}
{"id": "C15", "title": "Dynamic objects and arrays behave like a sorted map and a sequence", "statement": "Over any history of insert/add_field, set, erase/remove_field, push_front/back, pop_front/back, clear, resize, inject and project, a dynamic object behaves as a finite map from byte strings to values and a dynamic array as a sequence, with the documented exceptions thrown exactly on wrong type, out-of-range index, missing key on set, and keys longer than 65535 bytes; a call that throws leaves the observable value unchanged.", "quantifier": "for all finite histories of operations and all arguments", "why_tests_cant": "Histories are unbounded; invariants (sortedness, uniqueness) must hold after each.", "anchors": ["include/dart/heap/api.tcc: insert, set, erase, clear", "include/dart/heap/object.tcc: add_field, remove_field, inject_pairs, project_keys, erase_key_impl", "include/dart/heap/array.tcc: push_front, push_back, pop_front, pop_back, erase, resize"]}
{"id": "C16", "title": "Copies of dynamic values are independent (copy on write)", "statement": "Copying a dynamic object or array is cheap and shares storage, but mutating one copy is never visible through another copy, at any nesting depth, over any interleaving of copies and mutations. (clear and resize mutate shared storage in place and break this; a counterexample is proved and the theorem covers all other mutations.)", "quantifier": "for all finite histories of copy, move, destroy, insert, set, erase, inject over any number of handles", "why_tests_cant": "Aliasing bugs need specific sharing patterns among an unbounded number of handles.", "anchors": ["include/dart/heap/detail.tcc: copy_on_write", "include/dart/heap/api.tcc: insert, set, erase, clear", "include/dart/heap/array.tcc: resize, reserve", "include/dart/heap/object.tcc: erase_key_impl"]}
{"id": "C17", "title": "The intrusive reference counter frees exactly once and never early", "statement": "Over any history of creating, copying, moving, assigning, converting and destroying reference-counted pointers, the managed object is destroyed exactly when the last owner goes away: never while an owner remains, never twice, and the reported use count equals the number of owners.", "quantifier": "for all finite histories of pointer operations over any number of owners, including self-assignment and self-move", "why_tests_cant": "Histories are unbounded; double free or leak depends on particular sequences.", "anchors": ["include/dart/support/ptrs.tcc: counted_ptr_base, shareable_ptr, view_ptr", "include/dart/support/ptrs.h"]}
{"id": "C18", "title": "A packet's state machine", "statement": "A packet is at every moment either dynamic or finalized; finalize/lower and definalize/lift move between the states without changing the observable value; mutators work exactly in the dynamic state and throw state_error in the finalized state leaving the value unchanged; byte access works exactly in the finalized state; reads agree in both states.", "quantifier": "for all finite histories of packet operations", "why_tests_cant": "Unbounded histories mixing both representations.", "anchors": ["include/dart/packet/api.tcc: finalize, definalize, lift, lower, insert, set, erase, clear, get_bytes", "include/dart/packet/detail.tcc: get_heap, get_buffer"]}
{"id": "C19", "title": "JSON event stream round trip", "statement": "Serializing any object or array to the JSON event stream (start object, key, value events, end) and feeding those events to the library's parser state machine rebuilds exactly the same dynamic value, for any nesting.", "quantifier": "for all dynamic values whose root is an object or array (keys at most 65535 bytes)", "why_tests_cant": "The parser is a hand-written stack machine whose stacks must stay consistent for arbitrary nesting; quantifies over all trees.", "anchors": ["include/dart/connector/json.tcc: heap_parser (StartObject, Key, EndObject, StartArray, EndArray, EndAggregate, String, Int64, Double, Bool, Null), json_serialize"]}
{"id": "C20", "title": "The JSON-to-buffer path never overflows its allocation", "statement": "Parsing JSON text straight into a finalized buffer allocates eight times the text length; the encoding of the parsed document always fits.", "quantifier": "for all JSON texts that parse to an object", "why_tests_cant": "The bound is a claimed global inequality between text length and encoding size.", "anchors": ["include/dart/connector/json.tcc: basic_buffer::from_json", "include/dart/object.tcc: object(rapidjson::Value const&)", "include/dart/array.tcc: array(rapidjson::Value const&)"]}
{"id": "C21", "title": "Dynamic equality is structural equality", "statement": "Two dynamic values compare equal exactly when they are structurally the same (same type, same fields, elements in the same order, same scalar); equality is symmetric and transitive and inequality is its negation. (The code compares strings with strcmp, so bytes after an embedded NUL are ignored, and doubles with IEEE ==, so NaN is not reflexive and -0 equals 0; the theorem is for values without embedded NULs, NaNs and negative zeros, with counterexamples proved.)", "quantifier": "for all pairs and triples of dynamic values", "why_tests_cant": "Recursion over unbounded structures.", "anchors": ["include/dart/conversion_traits.h: typed_compare<basic_heap>", "include/dart/common.h: dynamic_string_layout, inline_string_layout", "include/dart/common.tcc: typeless_comparator"]}
{"id": "C22", "title": "Comparing finalized values compares the values", "statement": "Two finalized objects produced by the library compare equal exactly when they hold the same value.", "quantifier": "for all pairs of finalized objects", "why_tests_cant": "Equality is decided by memcmp; correctness is a statement about all pairs of values.", "anchors": ["include/dart/conversion_traits.h: typed_compare<basic_buffer>"]}
{"id": "C23", "title": "Equality across representations", "statement": "A finalized object compares equal to a dynamic object exactly when finalizing the dynamic one gives the same value. (The code treats a missing key as null, so {\"b\":..} versus {\"a\":null} can be reported equal; counterexample proved, theorem for null-free objects.)", "quantifier": "for all pairs of a finalized and a dynamic object", "why_tests_cant": "Depends on key sets and nulls over all pairs.", "anchors": ["include/dart/conversion_traits.h: generic_compare, compare_impl<dart_tag>"]}
{"id": "C24", "title": "Nested path lookup", "statement": "get_nested(path, separator) returns the value found by splitting the path at the separator and following the keys one by one, null if any key is missing or an intermediate value is not an object; it terminates for every path including empty components. A trailing separator adds no (empty) component and the empty path denotes the value itself. Dynamic and finalized values give the same answer (for keys that finalized lookups find, see C02).", "quantifier": "for all objects, paths and separators", "why_tests_cant": "Quantifies over all paths and objects.", "anchors": ["include/dart/common.h: get_nested_impl", "include/dart/heap/object.tcc: get_nested", "include/dart/buffer/object.tcc: get_nested"]}
{"id": "C25", "title": "Read accessors agree with each other", "statement": "For any object or array: at succeeds exactly when the key/index is present and then equals get; get returns null when absent; get_or returns the stored value when present (even if it is null) and the default otherwise; has_key, find, front/back and their _or/at_ variants are consistent with these; iteration visits exactly the present keys in order; size is the number of elements.", "quantifier": "for all values, keys and indices (including the maximum index and empty arrays)", "why_tests_cant": "Boundary behaviour over all indices and values.", "anchors": ["include/dart/heap/object.tcc: get, get_or, at, has_key, find, keys", "include/dart/heap/array.tcc: get, get_or, at, front, back, front_or, back_or, at_front, at_back", "include/dart/common.h: keys_impl, values_impl"]}
{"id": "C26", "title": "Numbers survive width selection", "statement": "Whatever integer width (16/32/64 bit) or decimal width (float/double) the library chooses for storage, reading back yields exactly the same 64-bit integer / the same double bit pattern; the chosen width is the smallest that can hold the integer.", "quantifier": "for all 2^64 integers and all 2^64 double bit patterns", "why_tests_cant": "2^64 inputs; boundary errors at width limits, float subnormals, infinities, NaN.", "anchors": ["include/dart/common.h: identify_integer, identify_decimal, integer_deref, decimal_deref", "include/dart/heap/detail.tcc: layout"]}
{"id": "C27", "title": "string_view replacement operations", "statement": "The library's own string_view agrees with the standard's definition of compare, substr, starts_with, ends_with, find, find_first_of and find_last_of. (rfind, find_first_not_of and find_last_not_of do not; counterexamples proved.)", "quantifier": "for all strings, needles and offsets", "why_tests_cant": "Infinite inputs; off-by-one errors at the ends.", "anchors": ["include/dart/support/string_view.tcc: compare, substr, starts_with, ends_with, find, rfind, find_first_of, find_last_of, find_first_not_of, find_last_not_of"]}
{"id": "C28", "title": "Byte-order wrapper", "statement": "Values written through the endian-aware integer wrapper are stored in little-endian byte order and read back unchanged, on little- and big-endian hosts; arithmetic updates act on the value.", "quantifier": "for all values of all widths, both host byte orders", "why_tests_cant": "Host order cannot be varied in a test run.", "anchors": ["include/dart/support/ordered.tcc"]}
{"id": "C29", "title": "Building a finalized object directly", "statement": "make_object on the buffer type accepts exactly lists of pairs with distinct string keys of at most 65535 bytes, otherwise throws without constructing anything; on success the allocation is large enough and the bytes equal those of finalizing the same dynamic object, whatever the argument order.", "quantifier": "for all lists of key/value pairs", "why_tests_cant": "All permutations and all contents.", "anchors": ["include/dart/common.tcc: buffer_builder::build_buffer, max_bytes", "include/dart/buffer/object.tcc: make_object", "include/dart/buffer/detail.tcc: dynamic_make_object", "include/dart/object.tcc: object(span<packet_pair>)"]}
{"id": "C30", "title": "Short strings are stored and read back exactly", "statement": "A dynamic string of any length (0 to the inline capacity 23 and beyond) reads back the same bytes and length, and is NUL terminated, including the boundary where the terminator shares the last inline byte with the length field.", "quantifier": "for all byte strings of any length", "why_tests_cant": "Boundary trick at length 23 plus all contents.", "anchors": ["include/dart/heap/string.tcc: basic_heap(string_tag), strv", "include/dart/common.h: inline_string_layout, dynamic_string_layout"]}
{"id": "C31", "title": "Searching a finalized object for a missing key yields the end iterator", "statement": "find/find_key on a finalized object with an absent key returns end. (The code returns an iterator at an uninitialised index; proved as a negation. For present keys the iterator is correct.)", "quantifier": "for all finalized objects and keys", "why_tests_cant": "Uninitialised reads behave differently per build and stack content.", "anchors": ["include/dart/object.tcc: get_it, get_key_it", "include/dart/buffer/object.tcc: find, find_key"]}
{"id": "C32", "title": "Inserting does not change the inserted variable", "statement": "Passing a variable to insert/add_field/push_back copies it: the variable still holds its value afterwards, and inserting a value into itself inserts the value it had before. (The code moves from a non-const lvalue if the key already exists, and inserting an aggregate into itself creates a cycle; both proved as negations.)", "quantifier": "for all values, keys and containers", "why_tests_cant": "Depends on key presence, value category and aliasing together.", "anchors": ["include/dart/heap/api.tcc: insert", "include/dart/conversion_traits.h: incoming_caster<dart_tag>"]}
{"id": "C33", "title": "Arithmetic on number wrappers", "statement": "native - number and native / number equal subtracting/dividing in the written order. (The code swaps the operands; negation proved. + and * are correct.)", "quantifier": "for all operands", "why_tests_cant": "Commutative operators mask the defect.", "anchors": ["include/dart/operators.tcc: DART_DEFINE_ARITHMETIC_OPERATORS"]}
{"id": "C34", "title": "Pointer alignment arithmetic", "statement": "Aligning an address or size with the library's bit mask formula yields the least multiple of the alignment that is at least the input, for the alignments in use, unless the 64-bit address would overflow.", "quantifier": "for all 64-bit inputs and alignments 1, 2, 4, 8", "why_tests_cant": "2^64 inputs.", "anchors": ["include/dart/common.h: align_pointer, pad_bytes"]}
{"id": "C35", "title": "A copied-in buffer is independent of the caller's memory", "statement": "A buffer constructed by copying from a caller-supplied span keeps its value when the caller later modifies or frees that memory. (The code keeps reading the caller's memory; negation proved; the owning-pointer constructors are fine.)", "quantifier": "for all byte strings and later writes", "why_tests_cant": "Use-after-free is only visible if the caller's memory changes.", "anchors": ["include/dart.h: basic_buffer(gsl::span<gsl::byte const>)", "include/dart/buffer/detail.tcc: allocate_pointer"]}
{"id": "C36", "title": "Dynamic and finalized inject/project agree", "statement": "Injecting into (projecting) a dynamic object and then finalizing gives the same bytes as finalizing first and then injecting (projecting); inject is idempotent and associative, injecting an object into itself changes nothing.", "quantifier": "for all objects, pairs and key lists", "why_tests_cant": "Algebraic laws over all inputs and two independent implementations.", "anchors": ["include/dart/heap/object.tcc: inject_pairs, project_keys", "include/dart/common.tcc: each_unique_pair, project_each_pair"]}
{"id": "C37", "title": "Owner counts are exact and storage does not leak", "statement": "After any program over dynamic values, refcount() of an object or array is exactly the number of values (variables and nested values) referring to it; storage is freed exactly when nobody refers to it any more; when no variable holds an aggregate, all storage is freed. (Inserting a variable into itself makes a cycle that is never freed; proved as a negation.)", "quantifier": "for all finite programs over any number of variables, all sharing patterns", "why_tests_cant": "Leaks and early frees depend on particular unbounded sequences of sharing and mutation.", "anchors": ["include/dart/heap/api.tcc: refcount, insert, set, erase, move construction", "include/dart/heap/detail.tcc: copy_on_write"]}
{"id": "C38", "title": "Iterating over finalized aggregates visits every element once, in order", "statement": "On a finalized array or object the loop from begin to end sees every element exactly once, in order, ends, and reads only within the buffer; the reverse iterators see them in reverse; key iterators see the keys in the same order as value iterators see the values. Iterators of anything that is not an aggregate throw type_error.", "quantifier": "for all buffers obtained by finalizing, reading, merging, projecting and building, of any size", "why_tests_cant": "Iterators are bare indices into untyped memory with no bounds checks and wrap-around arithmetic; tests see a handful of sizes and shapes.", "anchors": ["include/dart/iterator.tcc: ll_iterator", "include/dart/buffer/iterator.tcc", "include/dart/buffer/api.tcc: begin, end, rbegin, rend, key_begin, key_end", "include/dart/object.tcc: begin, end, load_key, load_value", "include/dart/array.tcc: begin, end, load_elem"]}
{"id": "C39", "title": "Incrementing and compound assignment of numbers", "statement": "Incrementing, decrementing and compound assignment of a number wrapper give the mathematically right value, and an integer stays an integer. (The code goes through double: the value is right below 2^53, but every integer becomes a decimal and a counter gets stuck at 2^53; proved as negations.)", "quantifier": "for all number wrappers and native operands, any number of repetitions", "why_tests_cant": "Large magnitudes and the change of type are missed by comparing with small native numbers.", "anchors": ["include/dart/primitive.tcc: operator ++, --, +=, -=, *=, /="]}
{"id": "C40", "title": "Casts between packets and native types", "statement": "Every native value (null, bool, integer of any width and signedness, double, string) put into a packet and read back as the same type is unchanged; reading a packet as a type it does not have throws type_error; reading an integer gives the packet's number when it is in range of the type. (Out of range integers are truncated silently in both directions; characterised exactly.) Finalized packets give the same as dynamic ones.", "quantifier": "for all native values, all integral types up to 64 bits, all packets", "why_tests_cant": "Conversions depend on value ranges of 2^64 size for every type.", "anchors": ["include/dart/conversion_traits.h: conversion_traits, cast, as"]}
{"id": "C41", "title": "Comparing packets with native values", "statement": "Comparing a packet with a native value never throws and says whether the packet holds that value: exactly for null, booleans, strings and integers against integers, numerically for integers against decimals. (Beyond 2^53 integers are rounded first, so different numbers compare equal; proved as a negation.) Finalized packets compare like dynamic ones.", "quantifier": "for all packets and native values", "why_tests_cant": "Rounding and wrap-around only show at particular 64-bit values.", "anchors": ["include/dart/conversion_traits.h: compare_impl", "include/dart/operators.tcc"]}
{"id": "C42", "title": "Parsing JSON gives the document's meaning", "statement": "Parsing any JSON document whose root is an object or array into a dynamic packet gives the value the document stands for: the last of several members with the same name wins, the order of members is irrelevant, whole numbers that fit 64 signed bits are kept exactly. A scalar root throws type_error and a member name longer than 65535 bytes throws invalid_argument. (Whole numbers from 2^63 to 2^64-1 come out negative; proved as a negation.)", "quantifier": "for all documents (trees of any depth and width, with duplicate names)", "why_tests_cant": "Documents are unbounded trees; parser state (two stacks and a pending key) must be right after every prefix of every event sequence.", "anchors": ["include/dart/connector/json.tcc: heap_parser, basic_heap::from_json"]}
{"id": "C43", "title": "Parsing JSON straight into a finalized buffer agrees with the dynamic parser", "statement": "Parsing the JSON text of an object (less than 512 MiB, no repeated names, names of at most 65535 bytes, whole numbers that fit 64 signed bits) straight into a finalized buffer gives a buffer that holds exactly the value the dynamic parser gives, whatever the freshly allocated memory contained and however the sort orders the members; the validator judges it like the finalized dynamic result, and every guarantee about reading, iterating, comparing with dynamic values, injecting, projecting and packet histories applies to it. (Outside these conditions the two parsers disagree, and because the memory is not cleared, two buffers parsed from the same text may compare unequal; proved as negations.)", "quantifier": "for all texts of the JSON grammar (with any extensions), all memory contents, all sorting functions", "why_tests_cant": "Allocators usually hand out zeroed memory in tests, so dependence on uninitialised bytes does not show; texts and nesting are unbounded.", "anchors": ["include/dart/connector/json.tcc: basic_buffer::from_json, basic_packet::from_json", "include/dart/object.tcc: object(rapidjson::Value const&)", "include/dart/array.tcc: array(rapidjson::Value const&)", "include/dart/common.h: aligned_alloc, json_lower"]}
{"id": "C44", "title": "Standard containers become packets and come back", "statement": "Converting a value of any type built from scalars with vector, deque, list, forward_list, array, map, unordered_map, multimap, unordered_multimap, set, multiset (and their unordered forms), optional, pair, tuple and variant to a packet succeeds and gives the packet the value stands for (sequences, sets and tuples as arrays, maps as objects, multimaps as objects of arrays, optionals and variants as what they contain). Converting that packet back, dynamic or finalized, gives the same container value. A packet of a type no such value stands for, or an array of the wrong length, throws type_error. (Round trips fail for nested optionals and for variants with an earlier alternative that takes the packet; proved as negations.)", "quantifier": "for all C++ types of that grammar (nested to any depth), all values of them, all orderings of maps and sets, all packets", "why_tests_cant": "The types form an infinite family (any nesting) and each has unboundedly many values; insertion orders of maps and sets differ from the packet's key order.", "anchors": ["include/dart/conversions.h: conversion_traits to_dart/from_dart"]}
{"id": "C45", "title": "Packets compare with containers by value", "statement": "`packet == container` says whether they are equal: sequences and tuples element by element, sets and multisets as arrays in any order with the same number of occurrences, maps as objects with the same keys and equal values, multimaps as objects of arrays with the values of a key in any order, an empty optional as null, and otherwise what is contained; numbers are compared as numbers. It always has an answer, a container equals the packet made from it, and finalized packets compare like the dynamic packets of the same value. (False for forward_list, which is read past its end; for multimaps, where other keys of the packet are ignored; for maps to types that can be null, where a missing key counts as null; and for integers beyond 2^53. Proved as negations, with the cases in which these are right as partial theorems.)", "quantifier": "for all C++ types of the grammar of C44 (nested to any depth), all values of them, all packets", "why_tests_cant": "The types are an infinite family, and each comparison ranges over all pairs of packet and container, including packets of other shapes, keys in other orders and permuted sets.", "anchors": ["include/dart/conversions.h: conversion_traits compare, generic_map_compare_impl, generic_multimap_compare_impl"]}
{"id": "C46", "title": "YAML documents become the values they stand for", "statement": "from_yaml of a text whose first document is a mapping or sequence gives the value the document stands for: mappings with scalar keys are objects (the last of several members with the same key counts), sequences are arrays, plain scalars are resolved (null, true, false; decimal, octal and hexadecimal integers in 64 bits; decimal numbers as strtod reads them; everything else is a string), quoted scalars are strings. It gives the same value, or throws the same exception, as from_json for the JSON document it stands for. A text without documents gives an empty object; scalar roots, aliases, and keys above 65535 bytes throw. from_yaml of a finalized packet holds the same value. (False for sequences or mappings as keys, which are undefined behaviour or give wrong values, for quoted scalars that look like null, booleans or numbers, and for numbers like 08.5. Proved as negations, with the remaining cases as partial theorems.)", "quantifier": "for all YAML documents (any nesting, any scalars), all strtod functions meeting the C standard", "why_tests_cant": "Documents are unboundedly nested and scalars are arbitrary texts; the hand-written stacks have to be right in every interleaving of mappings and sequences.", "anchors": ["include/dart/connector/yaml.tcc: parse_yaml, parse_scalar, parse_maybe_number"]}
{"id": "C47", "title": "Threads may share dynamic packets: memory stays safe", "statement": "Threads that copy dynamic packets, hand them to each other, read elements, insert and remove, with no locks of their own: no access to deleted elements, no two threads at the same elements at the same time with one of them writing, counters that say how many packets refer to the elements, elements alive as long as they can be reached, and deleted when they cannot. (False for clear, which does not copy on write and races with readers, and for an array pushed into itself, which leaks; proved as negations. Counters have to be atomic: with plain integers the claim is false, proved by a witness.)", "quantifier": "for all numbers of threads, variables and channels, all programs of the threads, all interleavings of their memory accesses, without bound", "why_tests_cant": "The interleavings are exponentially many and a test sees the few the scheduler happens to choose; a lost increment or a check of the counter that is out of date shows up as corruption far away, if at all.", "anchors": ["include/dart/support/ptrs.tcc: counted_ptr_base copy, destructor, use_count", "include/dart/heap/detail.tcc: copy_on_write", "include/dart/heap/api.tcc: push_back/insert, pop_back/erase, get, clear"]}
{"id": "C48", "title": "Threads sharing dynamic packets see values of their own", "statement": "Every execution of threads sharing dynamic packets has the effect of executing whole statements one after another on values that are copied when they are assigned or handed over. In particular a thread that does not receive anything ends with the values it would have if it were alone. (False for clear, which empties the packets of other threads too; proved as a negation.)", "quantifier": "for all numbers of threads, variables and channels, all programs of the threads, all interleavings of their memory accesses, without bound", "why_tests_cant": "Copy on write decides by a counter other threads are changing; that the decision is right in every interleaving is a statement about all schedules.", "anchors": ["include/dart/heap/detail.tcc: copy_on_write", "include/dart/heap/api.tcc: push_back/insert, pop_back/erase, get, clear", "README.md 513-520, 578"]}
{"id": "C49", "title": "C initialisers build what the format string describes", "statement": "dart_obj_init_va, dart_arr_init_va, their heap and packet forms and those with _rc and _err, called with the letters and arguments of any list of items (strings, sized strings, signed and unsigned int and long, double, booleans, null, objects and arrays nested to any depth; keys before the values in objects), report no error and build the object or array of these items: integers are the numbers passed, the last pair with a key counts. Commas at the end may be left out; whatever is behind the comma that closes the outermost aggregate is ignored, and so are further arguments. (False for unsigned long of 2^63 and more, which become negative; proved as a negation.)", "quantifier": "for all lists of items, nested to any depth, all argument values, both reference counters, any number of missing commas at the end, any further arguments", "why_tests_cant": "The formats are an infinite recursive language, and a wrong step in the variadic arguments shows only for certain nestings.", "anchors": ["src/helpers.h: identify_vararg, parse_val, parse_vals, parse_pairs", "src/heap.cc: dart_heap_obj_init_va, dart_heap_arr_init_va", "src/generic.cc: dart_obj_init_va, dart_arr_init_va"]}
{"id": "C50", "title": "C initialisers with any format: only the arguments asked for, and an error code", "statement": "With any format string, well formed or not, and arguments that are the ones it asks for up to the first thing without a meaning, the variadic initialisers do nothing undefined, read no further argument, and return DART_LOGIC_ERROR exactly if the format comes to something without a meaning before the outermost aggregate is closed (or a key is too long). The functions returning a packet return null exactly if there is an error. An unknown reference counter gives DART_CLIENT_ERROR and constructs nothing. (The documentation says the packet is null if construction fails: false, *dst is left partly filled, and the functions returning null leak it; proved for every such format.)", "quantifier": "for all format strings, all argument lists that fit, all reference counter numbers", "why_tests_cant": "Arbitrary byte strings are formats; a parser that reads one argument too many usually does not crash.", "anchors": ["src/helpers.h: identify_vararg, parse_val, parse_vals, parse_pairs, err_handler", "src/heap.cc: dart_heap_obj_init_va, dart_heap_arr_init_va", "src/generic.cc: dart_obj_init_va, dart_arr_init_va"]}
{"id": "C51", "title": "dart_for_each visits every element once, in order, and leaves nothing behind", "statement": "dart_for_each and dart_for_each_key run their body once for every value (key) of the aggregate, in order, with the element in the loop variable, do nothing undefined, and afterwards iterator and loop variable are destroyed. (False: after the last round the loop variable is destroyed a second time, for every aggregate and every body; for a non-aggregate an uninitialised iterator is used. Proved as negations; the order is proved up to that point, and the whole claim is proved for the same loop without the second destruction.)", "quantifier": "for all aggregates in every representation, all loop bodies that leave the hidden iterator alone, all states of the other variables", "why_tests_cant": "Destroying an object twice goes unnoticed when its destructor happens to do nothing, as for numbers; the loop has to be right for every number of elements and every body.", "anchors": ["include/dart/abi.h: DART_FOR_EACH_IMPL, dart_for_each, dart_for_each_key", "src/generic.cc: dart_iterator_done_destroy, dart_iterator_get_err, dart_iterator_next, dart_destroy"]}
{"id": "C52", "title": "C programs that keep the rules are defined and get the specified results", "statement": "A C program that initialises variables before using them, writes results only to variables without a live object, destroys nothing twice and uses iterators only while their source is unchanged is never undefined, whatever the calls return and however the program goes on from there: initialisers, copies, insert/set/erase for objects and arrays, get, conversions (to_heap, to_buffer, lower, lift), queries, destroy and iterators do what they do for values, mixing counters is a type error, changing a buffer a client error, a call that reports an error has changed nothing, and no live object is overwritten. (dart_to_buffer of a finalized value is documented to be a copy: false for everything but objects; proved as a negation.)", "quantifier": "for all programs (the next call may depend on all earlier results), all numbers of variables, all values, keys and indexes", "why_tests_cant": "The interface dispatches at run time over three classes and two counters for every pair of arguments, and lifetime errors depend on the history of calls.", "anchors": ["src/generic.cc 18-744: dart_copy, dart_obj_*, dart_arr_*, dart_to_heap, dart_to_buffer, dart_lower, dart_lift, dart_iterator_*, dart_destroy", "src/helpers.h: generic_unwrap_impl, safe_call, safe_construct, safe_insert, safe_set, mutable_visitor, err_handler"]}
{"id": "C53", "title": "Validation takes time in proportion to the size", "statement": "Validating bytes takes a number of steps (calls of valid_buffer and table entries looked at) bounded by the number of bytes. This holds for everything the library itself writes. It is false for untrusted bytes: children may overlap, and for every n there are buffers of 48n+48 bytes that are accepted only after at least 2^n steps and whose documents have at least 2^n values. On any bytes at all the validator stops after a number of steps bounded by the length alone.", "quantifier": "for all values and their finalized bytes; for all n with 48n+48 < 2^32; for all byte strings", "why_tests_cant": "The blow-up needs specially overlapping tables that no writer produces, and a bound for all inputs is not something samples can show.", "anchors": ["include/dart/object.tcc 504-595: object::is_valid", "include/dart/array.tcc 275-336: array::is_valid", "include/dart/common.h 1294-1305: valid_buffer"]}
{"id": "C54", "title": "Typed wrappers hold their type", "statement": "A dart::object, array, string, number or flag holds a value of its type from construction on, whatever is done with it: construction from a packet succeeds exactly when the packet has the type and throws type_error otherwise, and no copy, move, assignment, mutation, concatenation, arithmetic, finalization or definalization changes the type; a wrapper is null only after it was moved from. (False as stated: finalize() and definalize() of an object return a mutable reference to the packet inside, so that o.definalize() = p puts anything into it. A failed construction from an rvalue leaves the packet alone for strings, numbers and flags, but loses it for objects and arrays.)", "quantifier": "for all sequences of operations on any number of packets and wrappers", "why_tests_cant": "The invariant is about all histories of operations; the hole is an inferred return type that no test of one operation looks at.", "anchors": ["include/dart/api.tcc 447-484: basic_object::finalize, definalize, lower, lift", "include/dart/object.tcc 31-68, 213-215: construction", "include/dart/array.tcc 13-18", "include/dart/string.tcc 12-25", "include/dart/primitive.tcc 12-86", "include/dart/packet/api.tcc 185-233"]}
{"id": "C55", "title": "noexcept members of typed wrappers do not end the program", "statement": "The members of the typed wrappers that are declared noexcept never throw, that is they do not end the program. (False: they do in exactly two cases. A member that needs the value of a wrapper that was moved from ends it, and the arithmetic assignments of a number that was read from a finalized packet do. Nothing else ends the program and no step is undefined.)", "quantifier": "for all states reached by sequences of operations on packets and wrappers, and all operations in them", "why_tests_cant": "noexcept is a promise about all states; the failing ones need a wrapper made from a finalized packet or moved from, followed by an unrelated call.", "anchors": ["include/dart.h 3885-3934: noexcept arithmetic of basic_number", "include/dart/primitive.tcc 31-106", "include/dart/packet/api.tcc 12-17: basic_packet::operator =", "include/dart/string.tcc 21-41", "include/dart/api.tcc 236-259, 441-444, 520-549"]}
{"id": "C56", "title": "Programs with typed wrappers see the values they put there", "statement": "A program using packets and typed wrappers together behaves as if every variable held a value and a finalized flag: each step changes only the variable it names (and empties the one it moves from), reads and questions give the answers of the value, exceptions are the specified ones and change nothing except for failed moves into objects and arrays, and wrapping then unwrapping gives back the packet.", "quantifier": "for all programs (lists of operations) and all values written in them, as long as no string reaches 4 GiB", "why_tests_cant": "Every combination of representation, wrapper class, copy or move, and mutation order is covered; tests check a few sequences.", "anchors": ["include/dart/api.tcc 23-549, 851-964", "include/dart/object.tcc 70-210", "include/dart/array.tcc 20-168", "include/dart/string.tcc 12-41", "include/dart/primitive.tcc 12-106"]}
{"id": "C57", "title": "JSON with sajson gives the value of the document", "statement": "With sajson as the parser, `heap::from_json` returns the value the document stands for, the same as with RapidJSON, in whatever order sajson hands over the members; `buffer::from_json` writes only into the memory it allocated, refuses documents that are not objects, and for objects holds the same value as the dynamic packet.", "quantifier": "for all texts of less than 512 MiB and all documents handed over for them (any nesting, any order of members, any choice which whole numbers are integers), and all contents of the allocated memory", "why_tests_cant": "The bound of eight bytes per byte of text and the equality of the two results are claims about all documents; the order of members and the contents of fresh memory vary from run to run.", "anchors": ["include/dart/connector/json.tcc 74-133, 458-530", "include/dart/common.h 1424-1489", "include/dart/object.tcc 200-242", "include/dart/array.tcc 179-207"]}
{"id": "C58", "title": "The bundled optional behaves like the standard's and destroys what it creates", "statement": "Every program over `dart::optional` variables gets the answers the standard prescribes for `std::optional`, also when constructors and assignments of the element type throw; it is undefined only where a variable that is not alive is used or an empty one is dereferenced. The objects created and not yet destroyed are exactly those in live variables that report a value. Comparisons agree with those of the contents, nothing being equal to nothing and below everything else, and form a linear order if those of the elements do.", "quantifier": "for all element types, all programs of any length over any number of variables, and all choices of which element operations throw and what they leave behind", "why_tests_cant": "Exception safety must hold for every interleaving of throwing operations; a lost or doubled destruction shows up only in particular sequences.", "anchors": ["include/dart/support/optional.tcc 21-301", "include/dart/support/optional.h 333-607"]}
{"id": "C59", "title": "A time point is stored as the date and time of its second, and read back as that second", "statement": "Converting a system_clock time point to a packet gives a string. For the years 0 to 9999 it is YYYY-MM-DDThh:mm:ss.000Z with the Gregorian date and UTC time of the instant. Converting the packet back gives the instant with the fraction of its second dropped; time points in whole seconds or coarser units come back unchanged. A packet made from a time point compares equal to a time point exactly if both lie in the same second. A date and time written by others in UTC with any number of digits is read as its second. Finalizing the packet changes none of this, and packets that are not strings throw a type error.", "quantifier": "for all time points whose instant the clock can represent, all clock resolutions of a millisecond or finer, all durations that divide a second or are multiples of it, and all date texts", "why_tests_cant": "Calendars fail on particular days: leap years, centuries, months' ends, instants before 1970; there are 2^64 instants and infinitely many spellings.", "anchors": ["include/dart/conversions.h 1494-1564", "include/dart/shim.h 145-167"]}
{"id": "C60", "title": "Iterators of dynamic values are positions in the value of their variable", "statement": "In a program over dynamic values and iterators, an iterator taken from a variable (begin, end, find, their key versions, or returned by insert, set, erase) behaves as a position in the private value of that variable as long as that value is not changed: stepping, comparing and dereferencing it, and passing it to insert, set or erase, do what the position says. Changing another variable does not disturb it, however much storage the two share; moving the value takes its iterators along. A walk from begin visits all items in order and reaches end after size steps; a loop that erases through iterators removes exactly the chosen items of this variable and nothing of any other. Iterators without a value are refused with invalid_argument.", "quantifier": "for all programs with any number of variables and iterators that use no iterator after its own variable changed, all values, all sharing of storage, all key and index arguments", "why_tests_cant": "Iterators point into storage that is shared, copied on write and freed by counts; whether one dangles depends on the whole history of copies, which has unboundedly many shapes.", "anchors": ["include/dart/heap/iterator.tcc", "include/dart/iterator.tcc 59-103", "include/dart/heap/api.tcc 122-253, 514-580", "include/dart/heap/object.tcc 224-249, 303-343", "include/dart/heap/array.tcc 110-133, 242-264", "include/dart/heap/detail.tcc 55-61"]}
{"id": "C61", "title": "Views of dynamic values are names for the value of their variable", "statement": "A view of a variable that holds an object or array shows whatever the variable holds at the time it is used, through insertions, erasures, copies on write and assignments, as long as the variable keeps its type; a view of a part (get on a view) shows that part as long as the variable is not changed, and moves along when the value is moved. Changing or destroying any other variable does not disturb it, however much storage is shared. A view of a scalar or string is a copy of it. Views own nothing: making, copying, moving and reading them changes no storage and no owner count. as_owner() gives a value of its own that shares the storage the view shows, so that a variable can be nested into itself by way of a view.", "quantifier": "for all programs with any number of variables and views that use no view after its variable changed type (for parts: after it changed), all values, all sharing of storage, all paths", "why_tests_cant": "A view is the address of a smart pointer inside a variable, a map node or a vector; whether it dangles depends on the whole history of copies, moves and counts, which has unboundedly many shapes.", "anchors": ["include/dart/support/ptrs.h 384-455", "include/dart/support/ptrs.tcc 440-596", "include/dart/heap/detail.tcc 12-61", "include/dart/heap/api.tcc 17-54, 403-419, 616-620", "include/dart/heap/object.tcc 174-182", "include/dart/heap/array.tcc 152-156"]}
{"id": "C62", "title": "Views of finalized buffers show what their variable holds", "statement": "A view of a finalized buffer, made from a variable that owns its memory, can be read and shows the bytes that variable holds, whatever else the program does, until the variable itself is assigned, moved from or destroyed. Looking up keys and indices through the view has the same outcome as through the variable, with views of the parts; copies and moves of views show the same. Views own nothing: leaving them out of a program changes no owner, content or lifetime. as_owner() gives a buffer that owns what the view shows and stays valid whatever happens to the variable afterwards.", "quantifier": "for all programs with any number of buffer variables, memory blocks and views that do not change a variable while it is looked at, all bytes, all keys and indices", "why_tests_cant": "A view pairs a raw pointer with the address of a smart pointer inside a variable. Whether the two still belong together depends on the whole history of the program; a mismatch reads freed memory, which usually still holds the old bytes when tested.", "anchors": ["include/dart/buffer/api.tcc 12-30, 53-59, 447-453", "include/dart/buffer/detail.tcc 12-18", "include/dart/support/ptrs.tcc 440-596", "include/dart.h 7953-7957, 7968-7970, 10241-10242"]}
{"id": "C63", "title": "Taking packets apart by calls on temporaries", "statement": "Calling an accessor, mutator, finalize or definalize on a temporary packet (std::move(p).get(\"a\").get(\"b\")) changes that packet in place and has the outcome of the same call on a variable: the same value in the same representation, or the same exception. A chain of such calls gives what the calls one after the other give; if one throws, the variable is left with what the calls before it made of it. A packet that was moved from is null, keeps its representation, and can be used again; move assignment hands the packet over whole, and to itself does nothing.", "quantifier": "for all packets, dynamic or finalized, all chains of calls of any length, all programs that mix them with the calls of C18", "why_tests_cant": "The overloads for temporaries are separate code from the ones for variables. Each one is selected only for one value category, and a slip in one of them (a missing return, a pointer not updated, memory not let go) shows only on that overload, that representation and that kind of result.", "anchors": ["include/dart/packet/object.tcc 43-62, 172-177, 214-219", "include/dart/packet/array.tcc 43-90, 156-161, 193-198, 205-252", "include/dart/packet/api.tcc 190-221, 250-255", "include/dart/buffer/object.tcc 135-141, 165-171", "include/dart/buffer/array.tcc 52-57, 76-142", "include/dart/buffer/api.tcc 12-30, 204-215", "include/dart.h 10616, 10647"]}
{"id": "C64", "title": "Moving objects through the C interface", "statement": "dart_move hands an object over to another variable and leaves a null object behind that can be used and must be destroyed; moving it back restores everything. The take calls (dart_obj_insert_take_dart and the like) do to the destination exactly what the calls that copy do, report the same errors, and leave null in the variable the value came from. A program that keeps the rules of the interface while moving, taking, parsing JSON and handing raw bytes around has no undefined behaviour, overwrites no object and forgets no block of memory, and heaps stay dynamic and buffers finalized.", "quantifier": "for all programs of any length whose next call may depend on earlier results, all objects of the three classes, all keys and positions, both kinds of reference counters", "why_tests_cant": "Whether the source of a take call is emptied depends on its class, on whether it is finalized, on whether the call fails and on whether the key was in the destination before; a test of one combination says nothing about the others.", "anchors": ["src/generic.cc 47-54, 69-80, 127-138, 195-204, 246-255, 496-571, 717-722, 1418-1470, 1567-1587, 1653-1660", "include/dart/heap/api.tcc 118-152, 171-199", "include/dart/conversion_traits.h 84-157, 866-871", "src/helpers.h 637-645", "include/dart/abi.h 5655-5681, 7298-7350, 7728-7910"]}
{"id": "C65", "title": "Raw bytes and text through the C interface", "statement": "The bytes of a finalized object (dart_get_bytes, dart_dup_bytes) depend on its value only, and determine it: two objects have the same bytes exactly if they have the same value, whatever calls made them and whatever class and counter they have. A packet made of such bytes (dart_take_bytes) is finalized, has the value and the bytes of the object that was sent, owns the bytes, and nothing else changes. So a text that is parsed, finalized, sent and received is what the text stands for. The calls that take bytes own them also when they fail, and bytes can be given away or freed only once. A failing parse leaves a live null packet, unless the kind of counter does not exist.", "quantifier": "for all programs that keep the rules of the interface, all objects, texts, variables, pointers and counters", "why_tests_cant": "That equal values have equal bytes is a statement about all pairs of histories that lead to the same value; padding, the order of insertions and the class the object had before must not show. Ownership after a failure is invisible until the caller frees twice.", "anchors": ["src/generic.cc 496-571, 1418-1470, 1567-1587, 1653-1660", "src/helpers.h 637-645", "include/dart/abi.h 7287-7350, 7715-7915", "include/dart/buffer/api.tcc 133-146"]}
{"id": "C66", "title": "Comparing objects through the C interface", "statement": "dart_equal on two live objects always has an answer, whatever classes they are of, whatever kind of counter they have and whether they are finalized or not, and an object is equal to itself. Two objects are equal exactly if they hold the same value, and the order of the arguments does not matter (for values without null fields, NULs, NaN, negative zero and, where finalized, with plain keys; excepting two dynamic aggregates of the same class with different counters, which are never equal). dart_heap_equal and dart_buffer_equal agree with it on objects with the same counter. The documentation says instead that objects with different counters are always unequal, which holds only in that excepted case.", "quantifier": "for all programs that keep the rules of the interface, all pairs of live objects, all values, all ways in which they share memory", "why_tests_cant": "There are six combinations of class and counter on each side and three ways of comparing, one of which exchanges the sides at every level of nesting. Which one is taken depends on both arguments, so errors show only for particular pairs, in one order of the arguments, at a certain depth.", "anchors": ["src/generic.cc 396-405", "src/heap.cc 478-495", "src/buffer.cc 85-102", "include/dart/conversion_traits.h 214-330, 1105-1143", "include/dart/common.tcc 127-138", "include/dart/operators.tcc 26-42", "include/dart/abi.h 7170-7192"]}
{"id": "C67", "title": "Access with defaults, and packets as keys", "statement": "str_or, strv_or, integer_or, decimal_or, numeric_or and boolean_or return the value of the packet if it has the type asked for and the given default otherwise; they never throw, and answer alike on dynamic and finalized packets. maybe_as<T> never fails either: it is empty if no value of T corresponds to the type of the packet, and has the value if the packet holds one. A packet may be used as a key: if it is a string it finds a field of an object, if it is an integer an element of an array (nothing at a negative index); get returns null where there is nothing and throws a type error for every other combination; has_key agrees with it. get_or returns what is there, and the default if there is nothing there or the key has the wrong type (which is documented; on arrays a key that is not an integer throws instead).", "quantifier": "for all packets and keys of all programs, dynamic or finalized, all values, all defaults, all C++ types built from scalars and containers", "why_tests_cant": "The key and the packet each have seven types and two states, and the index is converted between a signed and an unsigned number on the way; a test would have to try all combinations to meet the one that throws. That a conversion never fails must hold for every C++ type, of which there are infinitely many.", "anchors": ["include/dart/common.h 1352-1363", "include/dart/packet/string.tcc 23-36", "include/dart/packet/primitive.tcc 35-69", "include/dart/packet/api.tcc 91-117, 244-267", "include/dart/heap/api.tcc 358-383", "include/dart/buffer/api.tcc 191-202", "include/dart/packet/object.tcc 264-269", "include/dart.h 6980-7012, 12573-12600"]}
{"id": "C68", "title": "Changing the reference counter changes nothing else", "statement": "transmogrify<NewCounter>() gives a packet of another class with the same state and the same value; of a finalized packet the bytes are the same too. It may be repeated any number of times. (Finalized packets must be objects: on any other part of a finalized packet it throws a type error, also where conversion of the dynamic value would succeed.)", "quantifier": "for all packets of all programs, all values that can be stored, all numbers of changes", "why_tests_cant": "The conversion rebuilds aggregates recursively through insertion into maps and vectors, so its faithfulness must be shown for values of every depth and size; whether it throws depends on what part of what packet is at hand.", "anchors": ["include/dart/heap/api.tcc 323-356", "include/dart/buffer/api.tcc 185-189, 248-253, 266-281", "include/dart/packet/api.tcc 235-242", "include/dart.h 8064-8068", "ADVANCED.md 374"]}
{"id": "C69", "title": "An iterator of a packet is a position in its items", "statement": "Iterators of packets over values or keys behave as positions in the list of items of their packet, whether it is dynamic or finalized: they can be copied, moved, assigned, stepped in both directions, compared and dereferenced (also in reverse), and every step shows what the positions say; the loop from begin to end meets every item once, in order, in the state of the packet. Packets that are not aggregates have none. An iterator of the dynamic and one of the finalized form of a packet are never equal. insert, set and erase at an iterator change the item at its position and nothing else; they refuse iterators without a position, iterators of finalized packets, and packets that are finalized.", "quantifier": "for all packets of all programs, dynamic or finalized, all programs of iterator operations that stay within the range, all positions, all values inserted", "why_tests_cant": "Three layers of iterators (map or vector or table of offsets; optional; variant) must agree for every interleaving of operations on any number of iterators; tests try single loops.", "anchors": ["include/dart/packet/iterator.tcc 12-62", "include/dart/packet/api.tcc 131-175, 388-456", "include/dart/heap/api.tcc 156-253, 514-610", "include/dart/heap/iterator.tcc 12-80", "include/dart/buffer/iterator.tcc 12-80", "include/dart/iterator.tcc 12-110", "include/dart/common.tcc 121-138"]}
{"id": "C70", "title": "Shared ownership through shareable_ptr, also when allocations fail", "statement": "shareable_ptr owns objects jointly with the reference counted pointers it wraps: assignment and construction from each other, from the wrapped pointer type, from unique_ptr and from new objects, make_shareable, reset, share and transfer put exactly the pointers named into and out of groups of owners; get, use_count, unique, bool and == answer as the groups say; views see what the pointer they look at sees and own nothing. Statements that throw because an allocation fails change nothing. The deleter of an object is called once, when its last owner is gone, and not before. (False for: moving a pointer into itself through raw(), a failing make_shareable, handing over a unique_ptr to std::shared_ptr or a new object to the library's own pointers when the control block cannot be allocated.)", "quantifier": "for all programs over any number of pointers of each kind, both kinds of counters, allocations failing at any points but those named", "why_tests_cant": "Ownership is a property of all interleavings of statements and of failures; tests neither inject failing allocations nor look at deleters after every possible sequence.", "anchors": ["include/dart/support/ptrs.tcc 59-75, 174-201, 225-440, 441-595", "include/dart/support/ptrs.h 34-81, 366-374, 384-456", "include/dart/refcount_traits.h 20-126"]}
{"id": "C71", "title": "The bundled variant behaves like the standard's, whatever throws", "statement": "variant contains an object of one of its alternatives, or nothing after some exceptions: construction, copy, move, assignment from variants, values and its own object, emplace, swap, index, valueless_by_exception, holds_alternative, get, get_if and visit answer as the standard says, whichever element operations throw; a call is undefined only if a variable that is not alive is used, or if the variant's own object is assigned as another alternative that is created in place. The index always names the alternative whose object lives in the storage, and no object is left undestroyed. If moving cannot throw, only a failed emplace leaves a variant without value, and a failed assignment of another alternative changes nothing. A swap that returns has exchanged the two; it cannot fail between different alternatives if neither move can throw; if it fails, the one whose move cannot throw is as it was. Comparisons order by: nothing first, then the number of the alternative, then the objects. Visiting finds the right alternative, however many there are.", "quantifier": "for all programs over any number of variants with any number (below 2^32-1) of alternatives, and any choice of the element operations that throw", "why_tests_cant": "Exceptions at each element operation in each state of both operands are a product no test enumerates, and that storage is never overwritten or left undestroyed is not visible in results; dispatch in blocks of 32 needs variants with more alternatives than any test uses.", "anchors": ["include/dart/support/variant.h 1101-1365, 1366-1496, 1632-1853, 1857-2162", "include/dart/support/variant.h 2209-2504, 2521-2630, 2659-2705"]}
{"id": "C72", "title": "The typed C calls are the generic calls, for one class", "statement": "The dart_heap_* and dart_buffer_* calls can be mixed with the generic calls in any order: a program that initialises before it uses, destroys once and passes objects of the right class never reaches undefined behaviour, every call does to the values of its variables what the C++ call of that name does, errors leave the other variables alone, and nothing is overwritten or leaked. A heap is never finalized and a buffer always is. A typed call and the generic call of the same name return the same and leave the same memory up to the class of the object they make; and a whole program on heaps and buffers returns the same, call by call, when it is rewritten for packets with the generic calls. Finalizing a heap and lifting the buffer gives the heap back.", "quantifier": "for all programs over any number of variables whose next call may depend on all earlier results, all values and all reachable states", "why_tests_cant": "The tests of the C interface run a few fixed scripts per class; agreement of two families of some hundred functions in every reachable state, and of whole adaptive programs, cannot be enumerated, and who owns the bytes after a failed call does not show in return values.", "anchors": ["src/heap.cc 17-622, 1166-1415", "src/buffer.cc 17-604", "src/helpers.h 306-372, 489-503, 620-676"]}
{"id": "C73", "title": "Objects can go between the C++ and the C interface", "statement": "In programs that use both interfaces and move objects between them with unsafe_api_swap, every step does to the values what it says: swapping to C makes a live C object of the class, counter, state and value of the C++ object, which is unchanged if copied and null if moved; swapping back gives the C++ variable the value and leaves the C object alone; later changes on one side do not show on the other; an object with the other kind of counter is refused with type_error and nothing changes. Programs that initialise before use, destroy once and swap to free variables never reach undefined behaviour and lose nothing. If every variable has the C type its functions are declared with, it always contains an object of that class, so swapping back is always defined.", "quantifier": "for all programs over any number of C and C++ variables whose next step may depend on all earlier results, all values and all assignments of types", "why_tests_cant": "The tests swap a handful of objects once in each direction; that no interleaving of some hundred C calls with C++ calls and swaps puts an object of another class under a type, or lets one side see the changes of the other, is a statement about all programs, and taking memory for the wrong class need not show at run time.", "anchors": ["include/dart/api_swap.h 32-549", "include/dart/abi.h 4356-4433", "src/generic.cc 38-54, 707-722", "ADVANCED.md 381-440"]}
{"id": "C74", "title": "Lookups in finalized objects are logarithmic", "statement": "get, at and has_key on a finalized object of n fields compare the key looked for with at most log2(n)+1 stored keys (none if n = 0), never with the same one twice and never with anything that is not a field of this object, whether the key is there or not. The same bound holds on bytes that were never validated, n being the number of fields they claim to have.", "quantifier": "for all finalized values, all objects at any depth in them, all keys looked for; and for all memory contents", "why_tests_cant": "Tests see the result of a lookup, not how many comparisons it took; an off-by-one in the bounds of a binary search that visits an entry twice or degrades to a scan on some sizes or missing keys gives the same answers, and on untrusted bytes the order of the table can be arbitrary.", "anchors": ["include/dart/object.tcc 633-678", "include/dart/object.tcc 694-703", "include/dart/object.tcc 751-774", "include/dart/buffer/object.tcc 130-210"]}
{"id": "C75", "title": "Bytes handed out for a finalized value make that value again", "statement": "For an object at any depth in a finalized value, get_bytes and dup_bytes give exactly the network bytes finalizing that object alone would give; a buffer made from the duplicate shows the object and goes on showing it whatever happens to all other variables. share_bytes gives the same bytes and length without a copy, and a buffer made from the shared pointer shows what was exported, and goes on showing it. Anything that is not an object is refused. (False of share_bytes for parts: it exports the whole.)", "quantifier": "for all finalized values, all parts a client can get at by any sequence of reads, all states of programs with any number of buffers and memory blocks, all later steps", "why_tests_cant": "Tests export a whole object or two. That nested objects are stored independently of their position, with the offsets, paddings and sizes they would have alone, is a statement about all values and places; the wrong export of parts gives a perfectly valid buffer.", "anchors": ["include/dart/buffer/api.tcc 248-282", "include/dart/packet/api.tcc 291-310", "include/dart.h 8026-8108, 9970-9991", "include/dart/support/ptrs.tcc 407-424"]}
{"id": "C76", "title": "When memory runs out, a statement is executed or nothing happened", "statement": "In programs that create, copy, move, read, insert, set, erase, clear and resize dynamic values with any sharing, allocations may fail at any point: while shared storage is copied before a change (after any number of values), for the control block of the copy, while a key or value is converted, while a map or vector grows, for a new string. A statement in which that happens throws std::bad_alloc and leaves the value of every variable, its arguments included, as it was; all other statements are executed as if nothing had failed before. Owner counts stay exact, nothing freed is used, and nothing built before the failure is lost. (False for: make_object and make_array, which are undefined then; a control block of the library's own counters, where the copy leaks; erase(iterator), which throws type_error instead.)", "quantifier": "for all programs over any number of variables, all failing allocations in any statements but those named, both kinds of counters", "why_tests_cant": "Tests do not make allocations fail, and the number of points at which they can is unbounded.", "anchors": ["include/dart/heap/detail.tcc 55-61", "include/dart/heap/api.tcc 118-261", "include/dart/heap/array.tcc 110-133", "include/dart/heap/object.tcc 98-101, 303-321", "include/dart/heap/string.tcc 45-66", "include/dart.h 7730-7735"]}
{"id": "C77", "title": "How many nested calls checking and restoring bytes take", "statement": "Checking finalized bytes (is_valid) and restoring the dynamic value they hold (definalize) takes exactly as many nested calls as the value is nested: a scalar or empty object or array is one level, each object or array around it one more. Accepted bytes of any origin take at least as many as what they show is nested, and any bytes at all are checked with at most one nested call for every sixteen bytes, and one more. A smaller stack never changes a verdict, it only overflows. Whoever runs them on a stack of fixed size should be safe from untrusted bytes. (False: nothing limits the nesting; for every number of calls there are valid bytes, sixteen for each call and sixteen more, written by the library itself, that overflow a stack with room for that many.)", "quantifier": "for all stack sizes, all byte strings, all values that can be finalized", "why_tests_cant": "Tests nest a few levels; the claim is about every depth up to the 4 GB the format allows and about forged bytes.", "anchors": ["include/dart/common.h 1286-1305", "include/dart/object.tcc 504-595", "include/dart/array.tcc 275-336", "include/dart/conversion_traits.h 84-115", "include/dart.h 13697-13722"]}
{"id": "C78", "title": "String views over memory", "statement": "The library's own string_view (used where the compiler has none) only refers to characters. In every program that makes such views from memory ranges and C strings, copies, swaps and shortens them, takes parts, reads, copies out, iterates in both directions and compares, and that keeps to the documented preconditions, nothing outside of the views is read, every answer (including the exceptions for positions past the end) is the one the same program gives on plain strings, and each view shows the string it should. Printing a view prints exactly its characters. (False for printing: it prints from the start of the view to the next NUL in memory, which is right if and only if the view holds no NUL and one lies just behind it; printing a part of a C string prints the rest too, an embedded NUL cuts the output, and a default-constructed view or one at the end of memory is undefined. Comparing from an offset past the end with a C string ends the program instead of throwing.)", "quantifier": "for all memory contents, all programs over any number of views, all positions and lengths", "why_tests_cant": "Tests print literals, which happen to be followed by a NUL; the claim is about every sequence of operations and every memory around the views.", "anchors": ["include/dart/support/string_view.h 41-61", "include/dart/support/string_view.h 204-209", "include/dart/support/string_view.tcc 34-182", "include/dart/support/string_view.tcc 439-477"]}
{"id": "C79", "title": "Making buffers when memory runs out", "statement": "In any program that makes finalized buffers (from dynamic objects, spans, pairs, JSON text, by merging or projecting), lets buffers take over the bytes of a std::unique_ptr, exports bytes into a std::unique_ptr, copies, moves and destroys buffers, and in which any allocation of any statement may fail and any conversion may throw, each statement does what it does with enough memory, or throws std::bad_alloc and changes no variable and no pointer. Every block of memory is freed exactly once, when its last owner goes, and never while somebody owns it. (False in three cases, all about the control block of the reference counter: while a buffer takes bytes over, the bytes are freed twice with std::shared_ptr, and with the counters of the library the caller loses them although the constructor threw; while a buffer is made with the counters of the library, its bytes are never freed.)", "quantifier": "for all programs over any number of variables and pointers, all contents, all choices of failing allocations, both kinds of reference counters", "why_tests_cant": "Tests do not make allocations fail, let alone each one of each statement of every program; leaks and double frees on those paths are not visible to them.", "anchors": ["include/dart/common.h 1370-1384", "include/dart/buffer/detail.tcc 20-52", "include/dart.h 8064-8108", "include/dart/buffer/api.tcc 12-30", "include/dart/buffer/api.tcc 266-282", "include/dart/conversion_traits.h 120-139"]}
{"id": "C80", "title": "Accepted untrusted bytes stay harmless when used further", "statement": "Whatever is reached by reading in bytes that is_valid accepts, wherever they come from, can be compared with other such parts, with dynamic and native values, written out as JSON events, converted to native types, searched by path, exported and passed to make_object (as key or value, mixed with dynamic values): nothing outside of the bytes is read and nothing outside of the new allocation is written; every such call returns or throws. An exported object is accepted again and holds the same value. Projecting such an object and injecting into it never write outside of the allocation either, and the result has exactly the fields asked for, or of both, and is accepted again; so it is after any number of projections and merges in any order. (False for the last: bytes whose size is no multiple of eight are projected into an object that claims more bytes than were allocated; nulls stored apart are packed into an object that is_valid refuses; is_valid accepts fields that overlap and keys that repeat, and inject and project then write past the end; for ordered keys it is stated exactly when. A key in the form for long strings makes make_object return an object whose value lies outside of it.)", "quantifier": "for all byte strings accepted, all parts reached by any reads, all arguments, all key lists, all programs of projections and merges", "why_tests_cant": "Tests use bytes written by the library, not all bytes the validator accepts; forged overlaps and forms never occur there.", "anchors": ["include/dart/object.tcc 504-595", "include/dart/object.tcc 305-342, 384-491", "include/dart/common.tcc 226-303", "include/dart/buffer/api.tcc 191-282", "include/dart/buffer/object.tcc 30-93", "include/dart/packet/detail.tcc 12-38"]}
{"id": "C81", "title": "Where untrusted bytes lie does not matter to validation", "statement": "is_valid answers for bytes at any address without looking at anything around them, its answer does not depend on where the bytes lie, and bytes it accepts can be made a buffer and read. (False: the validator looks at absolute addresses but not at the address the bytes begin at. At every address that is no multiple of eight it accepts bytes that are read beyond their end once they lie at a multiple of eight, where the constructors want them, and refuses bytes the library made; at odd addresses it refuses all non-empty objects. The constructor from a span, which takes any address, goes on reading there and finds wrong values. The answer depends on the bytes and their address modulo eight only, and is right for multiples of eight.)", "quantifier": "for all byte strings, all addresses, all contents of the memory around", "why_tests_cant": "Tests validate memory from the allocator, which is aligned; a message behind a header of three bytes in a network buffer is not.", "anchors": ["include/dart.h 13697-13981: is_valid, validate", "include/dart/object.tcc 558, 581, 714-725", "include/dart/array.tcc 324", "include/dart/common.h 1267-1276: align_pointer", "include/dart/buffer/detail.tcc 19-30: allocate_pointer", "src/generic.cc 1589-1591: dart_buffer_is_valid"]}
{"id": "C82", "title": "validate throws exactly where is_valid says no", "statement": "dart::validate returns exactly for the bytes dart::is_valid accepts and throws validation_error for all others; it never reads outside of the bytes and always ends. The message tells what is wrong first: truncated below eight bytes, length out of bounds if the bytes end before the recorded size, vtable length out of bounds if the table does not fit. (An array element of no known type is reported as the value of an object.)", "quantifier": "for all byte strings", "why_tests_cant": "The two flavours are separate instances of templates whose result validate ignores: a path that returned false without throwing would count as valid. Tests try a few damaged buffers.", "anchors": ["include/dart.h 13848-13981: validate", "include/dart/common.h 1294-1305: valid_buffer<false>", "include/dart/object.tcc 504-595", "include/dart/array.tcc 275-336", "include/dart/string.tcc 73-98", "include/dart/primitive.tcc 118-128"]}
{"id": "C83", "title": "dart_get_error tells what went wrong last, and a failing C call never ends the program", "statement": "Every call of the C interface that fails returns the error code of what went wrong, and afterwards dart_get_error gives its message, in the same thread, until that thread's next failure; other threads see their own. The pointer stays valid until then. Neither the failure nor reporting it ends the program, even when memory runs out. (The last part is false: the message is copied into a std::string inside of a catch clause of a noexcept function.)", "quantifier": "for all histories of calls over any number of threads, all ways the calls can end, all allocations that may fail, all growth policies of std::string", "why_tests_cant": "The message depends on the whole history of the thread and its place on the capacity of a string; tests do not make allocations fail, least of all two in a row.", "anchors": ["src/helpers.h 583-608: err_handler", "src/helpers.h 307-500: client errors", "src/generic.cc 7-11, 1649-1651: errmsg, dart_get_error", "include/dart/abi.h 8125-8137"]}
{"id": "C84", "title": "to_json gives JSON text of the value, the same for both representations, whole, and nothing else can be read in it", "statement": "The text to_json returns is a text, by the grammar of JSON, of a document that stands for the value; a finalized value has the same text as the dynamic one with the same flags; the text is a text of no other document (but for how a reader rounds decimals); parsed into a buffer it gives the value back; strings with NUL bytes, quotes or control characters in them cut nothing off; typed wrappers give the text of the value in them, with the flags asked for; dart_to_json hands out the text with one NUL behind it and its length. (False where NaN or an infinity is in the value: the text is then no JSON or that of another value, and the wrappers ignore the flag write_nan that would help; and dart_to_json writes to a null pointer when there is no memory.)", "quantifier": "for all values (any nesting, any bytes in strings and names), both representations, flags on or off, all ways of printing finite doubles that follow the grammar, all documents a reader may find in the text", "why_tests_cant": "Texts are as many as values; that no second document can be read in a text speaks about all readers. The parser of the tests is the same library as the writer, so that a common mistake would not show.", "anchors": ["include/dart/connector/json.tcc 221-295: to_json", "include/dart/connector/json.tcc 419-462: json_serialize", "include/dart/operators.tcc 103-107: operator <<", "src/generic.cc 430-446, src/heap.cc 509-529, src/buffer.cc 117-137: dart_to_json", "include/dart.h 75, 1067-1076: write_nan"]}
{"id": "C85", "title": "A lookup leaves the table only for names that may be the key", "statement": "Looking up a key in a finalized object reads the object's table, and of the names stored outside of it only those that the table does not exclude: names of the same length that begin with the same two characters. Whatever other bytes of the object contain, the result is the same. (For keys longer than 255 bytes it reads every name of 255 bytes or more it passes, whatever it begins with.)", "quantifier": "for all finalized values, all objects in them, all keys, all other contents of the memory outside of the table and the candidates", "why_tests_cant": "A test sees the result of a lookup, not which bytes it depended on; that no other byte matters is a statement about all contents of the rest of the memory.", "anchors": ["include/dart/object.tcc 633-678: get_key", "include/dart/common.tcc 14-24, 173-224: prefix_entry, prefix_compare", "IMPLEMENTATION.md 78-97"]}
{"id": "C86", "title": "A change copies one level at most", "statement": "Inserting into, setting in or erasing from a dynamic object or array whose storage has other owners allocates exactly one map or vector, however deep the value is, and leaves the contents of all storage there was as it is; afterwards the changed value is the only owner of its storage (refcount() is 1). If it was the only owner before, nothing is allocated and only its own storage changes. Copying, moving, destroying and reading allocate nothing. A program makes no more maps and vectors than it has statements that make or change a value.", "quantifier": "for all programs over any number of variables with any sharing at any depth, all keys and values, all outcomes of the statement (also if it throws)", "why_tests_cant": "A test can watch refcount() of the values it has at hand; that nothing below was copied and nothing elsewhere was changed is a statement about all storage reachable from anywhere, for any shape of sharing.", "anchors": ["README.md 512-548", "include/dart/heap/detail.tcc 55-61: copy_on_write", "include/dart/heap/api.tcc 118-202, 255-261, 500-513", "include/dart/heap/array.tcc 110-133", "include/dart/heap/object.tcc 98-101, 303-321"]}
{"id": "C87", "title": "Comparing a packet with a value of a C++ type has an answer", "statement": "`packet == value` is noexcept for all scalars and containers of the standard library that it accepts, and always has an answer: it does not end the program, whatever the packet holds and whether it is finalized or not. (False for maps whose keys are not strings: comparing an object with a std::map<int, T> of the same non-zero size, or with a std::multimap<int, T> that is not empty, ends the program. Such maps cannot be converted to packets unless they are empty, nor objects to them, except that an object converts to a std::map<bool, T> by losing all fields but the first.)", "quantifier": "for all packets reached by any sequence of operations in either state, all nested C++ types of the model without forward_list, all their values; and for all maps and multimaps from bool, integer types or double", "why_tests_cant": "Tests compare maps with string keys only; the comparison is accepted at compile time for every key type, returns false for most packets, and ends the program only for objects that have as many fields as the map.", "anchors": ["include/dart/conversions.h 67-170: generic_map_compare, generic_multimap_compare", "include/dart/conversions.h 600-923: conversion_traits of maps and multimaps", "include/dart/conversion_traits.h 549-571: are_nothrow_comparable_impl", "include/dart/operators.tcc 26-42: operator ==, operator !=", "include/dart/heap/api.tcc 120-155, 358-368"]}
{"id": "C88", "title": "A packet converts to an integral constant exactly if it equals it", "statement": "For a std::integral_constant<T, c> of bool or any integral type, the packet made from it equals it and converts back; a packet, finalized or not, equals the constant exactly if it holds that boolean or that integer (modulo 2^64), converts to it exactly if it equals it, and is refused by a type error otherwise. (False for decimals: 5.0 converts to the constant 5, but does not equal it, and above 2^53 decimals of another value convert too. For constants up to 2^53 in magnitude exactly the packets holding the value as integer or as decimal convert.)", "quantifier": "for all packets reached by any sequence of operations in either state, all constants of type bool or of an integral type of up to 64 bits", "why_tests_cant": "There is one specialisation per constant; a test instantiates a few small ones and compares them with integers, where converting and comparing agree.", "anchors": ["include/dart/conversions.h 1566-1588: conversion_traits<std::integral_constant>", "include/dart/conversion_traits.h 214-320: typed_compare", "include/dart/conversion_traits.h 1062-1143: compare_impl"]}
{"id": "C89", "title": "A float survives conversion to a packet and back, and conversion to float rounds correctly", "statement": "A packet made from a float holds its exact value, takes four bytes when finalized (unless it is NaN), equals it, and converts back to the same bits (NaN to NaN), whether finalized or not. `as<float>()` on any decimal gives the nearest float, of two equally near ones the even one, infinity beyond the range, and keeps the sign; on all other packets it is a type error. `packet == float` has an answer, and says whether the packet holds that number. (False for integers above 2^53; and an integer equal to a float does not convert to it.)", "quantifier": "for all floats, all doubles, all packets reached by any sequence of operations in either state", "why_tests_cant": "There are 2^64 doubles to round, and errors would be at ties, at the border to subnormal numbers, and at overflow.", "anchors": ["include/dart/conversion_traits.h 840-847: incoming_caster<decimal_tag>", "include/dart/conversion_traits.h 971-980: outgoing_caster<decimal_tag>", "include/dart/conversion_traits.h 1088-1096: compare_impl<decimal_tag>"]}
{"id": "C90", "title": "The nested calls it takes to finalize, write, compare and destroy a dynamic value are as many as it is nested", "statement": "Finalizing a dynamic value, writing it as JSON and destroying it take no more nested calls than the value has levels, comparing two no more than the shallower one has; with fewer calls' room the stack overflows or the outcome is the same. Writing a finalized value as JSON takes exactly as many. As many are needed for the others, too (unless finalizing throws, or parts are shared), and every value inside is destroyed once. (There is no limit: for every stack size a loop of make_array and push_back builds a value in order that overflows it on finalizing, writing, comparing, and on destruction.)", "quantifier": "for all dynamic values, all stack sizes, all patterns of sharing, both values compared", "why_tests_cant": "Whether the stack overflows depends on the depth of the value, of which a test tries a few; on the stack size of the machine it runs on; and on the shape of the rest of the value.", "anchors": ["include/dart/heap/detail.tcc 63-191: upper_bound, layout", "include/dart/connector/json.tcc 418-455: json_serialize", "include/dart/conversion_traits.h 218-243: typed_compare<basic_heap>::compare", "include/dart.h 5244: ~basic_heap"]}
{"id": "C91", "title": "Accesses of threads to shared elements are ordered: copy on write has no data races", "statement": "When threads share dynamic packets (each thread using its own, handing packets over through synchronised channels), then of any two accesses by different threads to the same shared elements, one of them writing, constructing or destroying, one happens before the other in the sense of the C++ memory model: by the order of a thread's statements, by releasing and acquiring a reference count, by receiving what was sent. This holds when decrements of the count acquire and release and when the check before a change in place acquires, as with std::atomic counts (skinny_ptr); and only then. Threads that construct, read, copy, hand over and destroy but never change what they share (finalized packets in particular) have no data races whatever the check does. (The first part is false for std::shared_ptr, the default, whose use_count() does not synchronise, and for clear.)", "quantifier": "for all numbers of threads, all programs of assignments, element reads, push_back, pop_back, sending and receiving (without clear, and without pushing an array into itself), all schedules, all memory orders of the counter's operations", "why_tests_cant": "A data race is about what orders two accesses, not about what happened: the racing program behaves on the tester's machine, and the schedules that matter are among exponentially many.", "anchors": ["include/dart/heap/detail.tcc 55-61: copy_on_write", "include/dart/support/ptrs.tcc 60-74, 192-193: counted_ptr_base copy, destructor, use_count", "include/dart/support/ptrs.h 33-41: managed_ptr", "include/dart.h 5056-5059: thread-safety model"]}
{"id": "C92", "title": "Finalized objects take memory in proportion to their content, and only huge ones are refused", "statement": "The bytes of a finalized object are as many as the rules of the format say, at least 8 for each value in it plus the characters of all keys and strings. Finalizing allocates less than 42 bytes for each value plus the characters, and less than 23 bytes for each value more than are handed out. An object for which 42 bytes per value plus the characters is at most 4 GiB always finalizes; one for which 8 bytes per value plus the characters is 4 GiB or more is refused with std::length_error. Projecting saves at least 8 bytes for each field left out (while the memory allocated stays that of the whole object); merging two objects takes no more bytes than both together, and 8 less for each field replaced; a merged object of 4 GiB or more is refused as well, and so is a text that stands for such an object when it is parsed into a finalized object.", "quantifier": "for all dynamic objects of any size and nesting (strings below 4 GiB), all finalized objects obtained in any way, all lists of keys", "why_tests_cant": "The sizes depend on the padding, which depends on the lengths of all keys before, on the widths of numbers and on nesting; objects near 4 GiB are impractical to test.", "anchors": ["include/dart/heap/detail.tcc:63-141", "include/dart/heap/detail.tcc:143-191", "include/dart/conversion_traits.h:122-139", "include/dart/object.tcc:345-381", "include/dart/array.tcc:240-262", "include/dart/connector/json.tcc:160-199"]}
