{
"C01": {"status": "proved", "note": "The comparator decides the documented order; irreflexive, transitive, trichotomous."},
"C02": {"status": "partial", "note": "Soundness of hits and misses of absent keys are proved for all keys and all nesting depths. Completeness is proved except in three situations where the code really misses present keys (signed char prefixes, 255-byte length cap, embedded NUL); each has a negation theorem."},
"C03": {"status": "proved", "note": "For every dynamic value with strings below 4 GiB; see C04 for larger strings."},
"C04": {"status": "proved", "note": "For strings below 4 GiB; beyond that the negation theorem shows the code overflows its allocation."},
"C05": {"status": "proved", "note": "Alignment of everything reachable, at any depth; recorded size multiple of 8."},
"C06": {"status": "proved", "note": "Bytes equal iff values equal."},
"C07": {"status": "proved", "note": "Always returns a verdict on any bytes, never reads beyond the claimed bytes, recursion depth at most n/8+2."},
"C08": {"status": "proved", "note": "All reachable elements, all read operations and full conversion; two negation theorems show what validation does not establish (boolean representation, key order)."},
"C09": {"status": "partial", "note": "Exact: accepted iff no null lies at the place of what follows it (C09_accepts_iff). Hence proved for all values whose nulls are last (or under even-length keys); negation theorems show that the code rejects other library output."},
"C10": {"status": "proved", "note": "Locality, trailing bytes, truncation, and that the recorded size decides."},
"C11": {"status": "proved", "note": "For every pair of obtained buffers; results below 4 GiB. Outcomes that overflow the allocation are the subject of C12."},
"C12": {"status": "partial", "note": "Claim is false as stated: negation with witness. Exact condition under which the merge is safe (C12_safe_iff: the union fits behind a table for both objects); hence safe for contiguous incoming keys, single pairs, contiguous base keys and small values."},
"C13": {"status": "proved", "note": "For every obtained buffer and key list; overflowing requests are the subject of C14."},
"C14": {"status": "partial", "note": "Claim is false as stated: negation with witness and for every object with a long enough request. Exact condition under which projecting is safe (C14_safe_iff); hence safe for requests no longer than the object."},
"C15": {"status": "proved", "note": "All histories; exceptions exact; inject with a dangling key (span overload) is undefined behaviour and proved so separately."},
"C16": {"status": "partial", "note": "Refinement of private values over all programs; clear and resize only when unshared (negations proved for shared storage); self-insertion excluded (C32)."},
"C17": {"status": "partial", "note": "All histories over variables and members of managed objects (linked structures, sharing, cycles) whose statements do not depend on the pointer being overwritten; negation proved for moving from a member of the object being released. Covers counted_ptr_base; shareable_ptr and view_ptr are C70; the 64-bit width of the counter not modelled."},
"C18": {"status": "partial", "note": "All histories over packets of both kinds as variables and arguments; finalize/definalize keep the value, mutators and byte access follow the state. Reads agree except where the code differs (negation proved: front_or/back_or on finalized, boolean() on finalized numbers, at(index) on non-arrays) and except for keys C02 does not cover. Packets are values in this model; that copies share elements (clear, resize, self-insertion) is C16 and C32. Calls on rvalues not modelled."},
"C19": {"status": "proved", "note": "Event level: json_serialize (dynamic and finalized) composed with heap_parser is the identity for every well formed object or array; scalar roots throw type_error. RapidJSON's text writer and tokenizer between the two are trusted to deliver the events written (integers re-dispatched by value)."},
"C20": {"status": "proved", "note": "The text of a document is specified by the JSON grammar with the four extensions the API can switch on (Spec/JsonText.lean). RapidJSON's own reader is not modelled: it is taken to deliver the document the grammar assigns. The lowering (object.tcc 246-303, array.tcc 210-235) is modelled write by write on arbitrary memory."},
"C21": {"status": "partial", "note": "Exact characterization for all values; structural for values without NULs, NaN and negative zero, under any sharing; negations proved for these."},
"C22": {"status": "proved", "note": "For all obtained objects and parts, under any sharing of memory."},
"C23": {"status": "partial", "note": "Exact with plain keys; same value with plain keys, no null fields, no NaN or negative zero; negations proved for each."},
"C24": {"status": "proved", "note": "All paths; for finalized values get_nested is proved to follow the buffer's own get for all keys, and to equal the dynamic answer for keys C02 covers (the _partial theorems)."},
"C25": {"status": "proved", "note": "Dynamic and finalized accessors; which keys a finalized lookup finds is C02."},
"C26": {"status": "proved", "note": "Independent definition of IEEE values by sign, exponent and significand; all 2^64 integers and bit patterns."},
"C27": {"status": "partial", "note": "compare, operators, at, substr, copy, starts_with, ends_with, find_first_of proved in full; find except where position + target length wraps around 2^64 (negation: find(c, npos) terminates); find_last_of only without a position (negation). rfind, find_first_not_of, find_last_not_of: exact region where they are right, and negations for all inputs elsewhere. C-string overloads forward and are not repeated."},
"C28": {"status": "partial", "note": "Storage order, round trip and addition proved for all widths and both host byte orders. Subtraction is proved for operands at least as wide as the stored type or signed; a narrower unsigned operand gives a wrong result (negation proved)."},
"C29": {"status": "partial", "note": "Accepted arguments and allocation proved in full. Equality with the finalized dynamic object needs that object to be finalizable: negation with witness above 4 GiB."},
"C30": {"status": "proved", "note": "Both string layouts at byte level, with whatever the memory contained before; 64-bit targets, length below 2^64."},
"C31": {"status": "partial", "note": "Present plain keys are found by both calls whatever the uninitialised variable held, and dynamic objects are right in all cases. For absent keys the property is wrong: the position is the uninitialised variable (negations: not the end, another field, outside the buffer)."},
"C32": {"status": "partial", "note": "Positive for constants, new keys and indices; negations proved: non-constant variable under a present key is emptied, self-insertion makes a cycle."},
"C33": {"status": "partial", "note": "Number wrapper on the left: all four operators give a nearest double of the exact result. Native on the left: + and * right, - and / wrong (operands exchanged; negations proved)."},
"C34": {"status": "proved", "note": "The 64-bit mask formula equals the least multiple above; the arithmetic used in the model agrees with it."},
"C35": {"status": "partial", "note": "Every buffer that owns the memory it reads keeps its value in all programs; all constructors but the one from a span, copies, moves, parts and dup_bytes give such buffers. The constructor from a span keeps reading the caller's memory (negations proved for all bytes and writes)."},
"C36": {"status": "proved", "note": "Both implementations compared; laws for all obtained buffers with results below 4 GiB."},
"C37": {"status": "partial", "note": "Exact counts, freed exactly when unused, no leak, over all programs of C16; negation proved for self-insertion."},
"C38": {"status": "proved", "note": "All obtained buffers, forwards and backwards, keys and values. Key and value iterators at the same position compare equal, which is shown separately."},
"C39": {"status": "partial", "note": "Right values below 2^52 and nearest doubles for compound assignment; integers always become decimals and get stuck at 2^53 (negations proved)."},
"C40": {"status": "proved", "note": "Round trip for all native values, exact characterisation of the truncating cases in both directions, type errors, agreement of finalized and dynamic. long double, float and containers are not modelled."},
"C41": {"status": "partial", "note": "Exact for null, booleans, strings and int64 integers; numeric comparison exact up to 2^53 and wrong beyond (negations proved)."},
"C42": {"status": "proved", "note": "Event level (RapidJSON's tokenizer is trusted). Last duplicate wins, order irrelevant, uniqueness of the meaning, exceptions for long names and scalar roots; negation for numbers of 2^63 and more."},
"C43": {"status": "proved", "note": "for texts below 512 MiB without repeated names, long names or numbers of 2^63 and more; what happens otherwise, and that equality of parsed buffers depends on uninitialised memory, is proved as negations"},
"C44": {"status": "partial", "note": "Conversion to packets, finalized agreement and refusals for all types; round trip for types whose values can be told apart as packets (no nested optionals, no variant alternative that takes what a later one gives). Full round trip is false: negations proved."},
"C45": {"status": "partial", "note": "Comparison is right for all nestings of sequences, arrays, sets, maps, optionals, tuples, variants with integers up to 2^53; forward_list, multimaps and nullable map values are right under conditions and wrong otherwise (negations proved)."},
"C46": {"status": "partial", "note": "Documents without aliases and with scalar keys; quoted scalars only where the quotes make no difference; no NUL, no hexadecimal fractions, no 8/9 after superfluous zeros. Negations for complex keys, quoted scalars, leading zeros, NUL."},
"C47": {"status": "partial", "note": "proved for all programs without clear and without pushing a packet into itself; negations for clear, self insertion and plain counters; plain counters are fine for one thread"},
"C48": {"status": "partial", "note": "proved for all programs without clear and without pushing a packet into itself; negation for clear"},
"C49": {"status": "partial", "note": "Partial: false for unsigned long of 2^63 and more (C49_unsigned_long_wrong)."},
"C50": {"status": "partial", "note": "Partial: *dst is not null after an error (C50_left_behind)."},
"C51": {"status": "partial", "note": "Negations: the macro is undefined for every aggregate and body, and for non-aggregates. Proved: the order of the elements up to the point where it becomes undefined, and the whole claim for the loop without the second destruction."},
"C52": {"status": "partial", "note": "All programs that keep the rules, with the next call depending on earlier results. Left out: asking finalized numbers for a truth value (C41); lookups in finalized objects may miss keys (C02). Negation: dart_to_buffer does not copy finalized non-objects."},
"C53": {"status": "partial", "note": "Linear for library output (C53_linear_partial), bounded for all bytes; false for untrusted bytes (C53_negation, C53_negation_expands): overlapping children make validation exponential."},
"C54": {"status": "partial", "note": "All programs of wrappers and packets that do not assign through the reference that finalize/definalize return (C54_typed_partial, C54_never_null_partial); with it false (C54_negation). Failed conversions: no effect for copies and for string/number/flag; for rvalues into object/array the packet is lost (negation)."},
"C55": {"status": "partial", "note": "False; the steps that end the program are characterised exactly (C55_ends_iff), no step is undefined, and programs without moves are only ended by arithmetic on finalized numbers (C55_program_partial)."},
"C56": {"status": "proved", "note": "Every program matches the specification on observable states, including where it ends the program."},
"C57": {"status": "partial", "note": "The dynamic packet is right for every document, and all writes stay within the memory for every document. The buffer is right for objects handed over in order, without repeated names and NUL bytes in names; missing because the code is wrong: arrays are taken for objects (reads out of bounds), names above 65535 bytes are cut, nothing sorts the members, large whole numbers become decimals."},
"C58": {"status": "proved", "note": "Refinement of the standard's optional for all programs and all throwing element operations; balance of created and destroyed objects; comparisons. The rvalue value() does not compile and is outside the model."},
"C59": {"status": "partial", "note": "The text, round trips, comparison, independence of the packet's state and the type error are proved without restriction (C59_text, C59_round_trip, C59_round_trip_coarse, C59_compare, C59_states, C59_wrong_type). Reading other texts is partial: the fraction must be below 1 - 2^-19 because the seconds are read as a float (C59_parse_rounds_up), the instant must be within the clock's range (C59_far_dates), and offsets are ignored (C59_offset_ignored). C59_fraction_lost shows two different instants of (-1s,1s) with equal packets: 'the same second' means the same second towards 1970."},
"C60": {"status": "partial", "note": "All programs with iterators behave as with positions in private values; walks, loop ends and erasing loops. Missing: clear/resize/reserve of shared storage invalidate other owners' iterators (negations), a variable inserted into itself (C32)."},
"C61": {"status": "partial", "note": "Programs with views refine names for private values; clear and resize of shared storage are excluded (false there: C61_negation_clear, C61_negation_clear_part), as is a variable inserted directly into itself (C32)."},
"C62": {"status": "partial", "note": "For programs that leave the variables alone that are looked at; false otherwise (disagreement 55): the view keeps the old pointer, as_owner pairs it with the new owner."},
"C63": {"status": "partial", "note": "All programs with chains of calls on temporaries and moves. Missing: at_front and at_back on temporaries, which are undefined behaviour on every non-empty array (C63_negation_no_return); keys that are not plain as in C02."},
"C64": {"status": "partial", "note": "Programs with moves, take calls, JSON and raw bytes are simulated by values; take equals copy on every other variable. That the source is null afterwards holds for dynamic packets and for heaps not stored under a new key; the other cases are disproved."},
"C65": {"status": "proved", "note": "Round trip, determinism and injectivity of bytes after all careful programs, text to received object, ownership of bytes, what failing calls leave behind."},
"C66": {"status": "partial", "note": "Proved for all programs that keep the rules: an answer always, equality with itself, equality exactly for the same value and symmetry under the conditions stated; finalized objects of the same class and objects of different classes for wider ranges of values. Disproved with witnesses: symmetry and the documented role of counters without the conditions."},
"C67": {"status": "partial", "note": "get_or with a key of the wrong type throws on arrays instead of returning the documented default; searches in finalized objects as in C02; maybe_as: values that can be told apart (C44)"},
"C68": {"status": "partial", "note": "Finalized packets must be objects; on parts that are not, it throws (disagreement 67)."},
"C69": {"status": "proved", "note": "Programs of iterator operations within the range, on packets that do not change meanwhile; the loop; changes at every iterator a program has."},
"C70": {"status": "partial", "note": "False in the cases listed in disagreements 68 and 69, which are disproved with witnesses; proved for all programs that avoid them."},
"C71": {"status": "proved", "note": "All programs, for any number of alternatives below 2^32-1. Overload resolution and hashing are not modelled; builds with exceptions."},
"C72": {"status": "partial", "note": "Typed calls among the generic ones: careful programs, agreement with the generic call in every reachable state, whole programs rewritten for packets, there and back. Partial: dart_buffer_from_json/from_bytes, to_json, clear/resize/reserve left out; the two families disagree on mixed counters and on who owns bytes after an unknown counter (C72_mixed_counters, C72_bytes_kept_wrong); the rewriting is for thread-safe counters without take calls."},
"C73": {"status": "partial", "note": "Wrong in the code: what dart_copy and dart_move return as a dart_packet_t may be a heap or a buffer, and swapping that to a C++ packet is undefined (C73_class_unchecked_wrong). Proved: all programs over both interfaces that keep the rules, there and back, refusal of the other counter, and that with these two calls restricted to one type the class is always the declared type."},
"C74": {"status": "proved", "note": "Bound on the entries compared, for finalized objects at any depth and for untrusted bytes."},
"C75": {"status": "partial", "note": "Everything proved except share_bytes of parts, which is wrong: it exports the whole (C75_share_part_wrong, for all parts)."},
"C76": {"status": "partial", "note": "All or nothing for all programs of C16 with allocations failing anywhere but in the named cases; negations: undefined make_object, lost copy with own counters, erase(iterator) misreports."},
"C77": {"status": "partial", "note": "Exactly as many nested calls as levels of nesting for library-made bytes, at least as many for all accepted bytes, at most length/16+1 for any bytes; no fixed limit exists (C77_no_limit)."},
"C78": {"status": "partial", "note": "Programs over views proved in full; printing a view is not what the property says (equivalence proved, negations proved)."},
"C79": {"status": "partial", "note": "Programs over buffers and unique_ptrs with failing allocations: all or nothing, each block freed once. Partial because the code is wrong where the control block of the counter cannot be allocated: double free, lost bytes and leak are proved."},
"C80": {"status": "partial", "note": "Reads, comparisons, export and make_object proved for all accepted bytes; project and inject characterised exactly for ordered keys, and their results shown to have exactly the right fields and to be accepted again when sizes are multiples of eight and no field is null, also after any number of projections and merges. Partial because the code is wrong: accepted bytes with overlapping fields, repeated keys, keys in long form, other sizes or nulls stored apart make project, inject and make_object go wrong, proved with witnesses."},
"C81": {"status": "partial", "note": "Answers at any address from the bytes alone, depends on the address modulo eight only, right for multiples of eight. Partial because the code is wrong: at every other address bytes are accepted that are read beyond their end once they lie aligned, good bytes are refused, and the constructor from a span reads wrong values; proved with witnesses for all addresses modulo eight."},
"C82": {"status": "proved", "note": "For all byte strings; messages of the header checks exactly, others by example. The wrong noun in one message is recorded (C82_array_message_wrong)."},
"C83": {"status": "partial", "note": "Codes, messages, threads and pointers for all histories. Partial because the code is wrong when memory runs out: reporting may end the program (C83_negation_ends); otherwise as stated but for client errors called unexpected (C83_memory_partial), and never after a longer message (C83_prepared)."},
"C84": {"status": "partial", "note": "proved: the text derives in the grammar, of a document that means the value (finite numbers, or with write_nan), same text for finalized values, grammar unambiguous so no reader finds anything else, round trip into a buffer, no NUL, the C call. Negations: NaN in an object gives no JSON, [NaN] gives [], wrappers drop the flags, malloc unchecked. Missing: values with NaN or infinities without the flag, where it is false; how finite doubles are printed is assumed."},
"C85": {"status": "proved", "note": "the result of a lookup depends on the table and the names MayMatch allows only; what these are for short keys; long keys read more names than documented (C85_long_keys)"},
"C86": {"status": "proved", "note": "over the storage model of Cow; clear and resize do not copy at all (C16)"},
"C87": {"status": "partial", "note": "Proved for all modelled types without forward_list, in both states of packets; false for maps and multimaps with keys that are not strings, where it is proved exactly when the program ends."},
"C88": {"status": "partial", "note": "Comparison characterised in full; conversion characterised for constants up to 2^53 in magnitude. The equivalence of the two is false for decimals (shown by witnesses)."},
"C89": {"status": "partial", "note": "Conversion in both directions proved in full; comparison for integers up to 2^53 in magnitude, above which it is wrong (shown by a witness)."},
"C90": {"status": "partial", "note": "Sufficiency, necessity and that a small stack changes nothing else are proved for all values; a limit that does not depend on the value does not exist (C90_no_limit)."},
"C91": {"status": "partial", "note": "Proved for all programs without clear and self-insertion and for all memory orders with acquiring check and acquire-release decrements (skinny_ptr). False for std::shared_ptr, the default (C91_shared_ptr_races; the only race there: C91_shared_ptr_partial), and for clear (C91_clear_races); C91_orders_needed shows that exactly these orders are needed. Threads that only read, as with finalized packets, never race (C91_reading, C91_reading_orders). The description of the steps from which this follows is proved complete (C91_elements_accessed, C91_counters_used, C91_changes_are_writes, C91_counter_changes, C91_channel_changes)."},
"C92": {"status": "partial", "note": "Proved for finalizing and projecting (strings below 4 GiB, as C04), and for merging objects of less than 4 GiB together. That merging and parsing refuse larger results is false: the recorded size is cut to 32 bits (C92_merged_size, C92_negation_merge_no_limit; C92_parsed_size, C92_negation_parse_no_limit). C92_parsed_size needs every member to be below 4 GiB by itself. The bounds per value are upper and lower bounds; C92_size gives the exact size by the rules of the format."}
}
