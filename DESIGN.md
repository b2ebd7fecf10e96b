# Formal model of libdart: design

The target is the header-only C++ library in `/repo/include` (libdart). This
directory holds a Lean 4 model of the code and theorems about it.
`properties.jsonl` states the properties in English, `MANIFEST.json` maps each
property to the theorems that settle it, this file says what is modelled, how,
and what is trusted.

## Layout of the Lean project

* `lean/Verif/Model/*.lean`: definitions only; each one cites the file and
  lines of `/repo` it follows and says where it simplifies.
* `lean/Verif/Spec/*.lean`: small specifications, written without reference to
  the model.
* `lean/Verif/Lemmas/*.lean`: helper lemmas.
* `lean/Verif/Props/Cxx*.lean`: the property theorems, each with non-vacuity examples.

## Modelling decisions

* **Bytes and memory.** A byte is `UInt8`, a byte string `List UInt8`, an
  allocation is a byte list. Addresses are positions in the allocation; the
  allocation base is 8-byte aligned (the library requests 8-byte alignment from
  `aligned_alloc`), so alignment of an address is alignment of the position.
  Every read and write in the model is bounds checked, and leaving the
  allocation is the distinct outcome `none` (or `oob`): undefined behaviour is
  a result, never silently totalised.
* **Machine integers.** Integers read from or written to memory have the C++
  width (little endian, 2/4/8 bytes); a value that does not fit is truncated
  by the model exactly as `static_cast` would. `size_t` arithmetic is modelled in
  unbounded naturals except where wrap-around is the point (C34, C28, pop_back).
* **Doubles** are their 64-bit patterns. Widening a `float` is an exact
  function on bit patterns; "`val == (float) val`" is the question whether a
  float with exactly this value exists (rounding returns that float if so).
  Arithmetic on doubles (C33, C39) is modelled exactly on bit patterns except for NaN payloads.
* **Strings** are byte lists (embedded NULs allowed). `char` is signed
  (x86-64) in the prefix comparison; a parameter covers unsigned-`char` targets.
* **Exceptions** are error values. A theorem "throws X" is equality with `error X`.
* **std containers** (`std::map`, `std::vector`, `std::sort`) are modelled by
  their standard specification: sorted association lists / lists / sorting.
* **Templates / reference counter kinds**: one generic instance is modelled.
  Views (`view_ptr`) of dynamic values (CowView) and of buffers (BufView) are modelled; views of packets are not.

## What each model module covers

| module | code | notes and simplifications |
|---|---|---|
| Basic, Align | bytes, little endian integers, checked reads/writes; `align_pointer`, `pad_bytes` (common.h 1267-1284) | the bit mask formula itself is modelled on 64-bit vectors in Align and proved equal to the arithmetic used elsewhere (C34) |
| Key | `dart_comparator`, `prefix_entry`, `prefix_compare` (common.h 376-451) | `char` signedness is a parameter |
| Value | dynamic values as mathematical values, `identify_*`, width selection, float widening | the value of a dynamic packet; how it is stored is Heap/Cow/Str |
| Layout, Read, Buffer | constructors of object/array/string/primitive as writes into an allocation, readers, `basic_buffer` accessors, `finalize`, `definalize` | every read and write is checked against the allocation |
| Validate | `is_valid` of object, array, string, primitive, `valid_buffer` (the non-throwing flavour) | runs on arbitrary bytes; the root is assumed 8-byte aligned, as the constructors guarantee |
| Heap | `basic_heap` mutators and accessors at the level of values | sharing is the subject of Cow |
| Nested | `get_nested_impl` | |
| Builder | `make_object`, `inject`, `project` of buffers; merge and projection constructors; `realign` | `std::sort` is any sorting permutation |
| Cow | `basic_heap` with reference counted storage: copy on write, aliasing of arguments | C16, C32, C37 |
| CowIter | `basic_heap::iterator` over the storage of Cow: begin, end, find, stepping, comparison, dereferencing, `insert`/`set`/`erase` by iterator, the iterators they return, `reserve` | an iterator is a node (by key) or an index in a block of storage; vector iterators count as lost when the size changes; `reserve` always moves the elements; reverse iterators left out | 
| CowView | `basic_heap::view` over the storage of Cow: making a view, `get` on a view, copying and moving views, `as_owner`, type, scalar value, `size` | a view is the place of a smart pointer (variable, map node, vector element); it counts as dangling when that place is gone or holds another type; a vector element's place is gone when the size changes; long strings are values; comparison and iteration of views left out |
| BufView | `basic_buffer::view` over the ownership of Own: making a view, `get` on a view, copying and moving views, `as_owner` | a view is a position in a block together with the number of the variable it was made from; the end of a variable's life makes the latter dangle |
| Ptr | `counted_ptr_base` copy/move/assign/reset/swap; control blocks with counters; objects owning pointers | `shareable_ptr` has the same assignment shape; `view_ptr` is modelled in CowView; counters are natural numbers |
| Packet | `basic_packet` as the sum of the two, dispatching every call | calls on temporaries are in Rvalue |
| Rvalue | the overloads for temporaries of buffers and packets, chains of them, moves of packets | packets are values; `at` with a packet as key is left out (it calls `identifier.at_type()`, which does not exist) |
| StringView | the bundled `string_view` | pointers and `size_t` wrap-around modelled |
| Str | inline/out of line string layouts at byte level | 64-bit targets |
| Equal | heap, buffer and generic comparison | identity of storage is an arbitrary parameter |
| Iter | `ll_iterator`, `dn_iterator`, `find`, `find_key` | moved-from iterators are not modelled; the uninitialised index is a parameter |
| Float, Arith | IEEE double +, -, *, / , conversions; operators of the number wrappers | rounding is to nearest, ties to even; NaN payloads are not modelled; `long double` and `float` results are not modelled |
| Native | conversions from and to native types, comparisons with them | `float` and user types are not modelled |
| Own | which memory a buffer reads and who owns it | block lifetime by owners, counting is C17 |
| Json | `json_serialize`, `heap_parser` at the level of SAX events | RapidJSON's reader is trusted; its writer see JsonOut; strings of 2^32 bytes are outside (Spec) |
| JsonOut | the text of `to_json`: RapidJSON's writer driven by `json_serialize`'s calls, the copy into a `std::string`, the wrappers' `to_json`, `operator <<`, `dart_to_json` and its typed forms | the writer is modelled from RapidJSON's documentation (it is no part of the library); how finite doubles are printed is a parameter constrained by `PrintsNumbers` |
| Lower | rapidjson constructors of object/array, `basic_buffer::from_json`, `json_lower` | the fresh memory has arbitrary contents; the text is specified by the JSON grammar in Spec/JsonText |
| Yaml | `parse_yaml` at the level of libyaml's events, `parse_scalar`, `parse_maybe_number`, `from_yaml` | libyaml is trusted; a plain `std::runtime_error` is `parseError`; `strtoll` base 0 is modelled (without the binary prefix of C23) |
| Conc | dynamic packets shared by threads: counters, copy on write, deletion, hand-over | scalars and arrays only (objects behave alike); sequentially consistent atomic counters (`skinny_ptr`), plain ones as a variant; an element access, an insertion and a removal within a block are one step; counters are unbounded |
| Abi | error codes of the C interface, the initialisers with format strings | variadic arguments are a typed list, a missing or wrongly typed one is undefined behaviour; one model for the heap, packet and generic functions |
| AbiCalls | the C interface as a machine: variables with live objects and iterators, initialisers, copies, mutators, reads, conversions, queries, destruction; programs whose next call depends on earlier results; `dart_for_each` | objects are values (no sharing, see C16/C32); moves, JSON and raw bytes are in AbiMove; `clear`/`resize`/`reserve` and `dart_equal` left out; any iterator counts as invalid once its source changed; storing an object in itself is outside the model |
| AbiMove | more calls of that machine: `dart_move`, the `take` calls, `dart_from_json`, `dart_get_bytes`, `dart_dup_bytes`, `dart_take_bytes`, `dart_aligned_free`, with pointers to bytes the program owns | a text that is to be parsed is given as its document, or as no document; `dart_from_bytes` is left out (C35), as is `dart_to_json` (C18); what `malloc` returns is aligned |
| AbiTyped | the typed calls `dart_heap_*` and `dart_buffer_*` on that machine: copy, move, destroy, queries, element access, all mutators and `take` calls of heaps, `lower`/`finalize`, `lift`/`definalize`, `dart_heap_from_json`, the calls on bytes of buffers | an object of another class behind a typed pointer is undefined; `dart_buffer_from_json` (C43), `dart_buffer_from_bytes` (C35), `to_json`, `clear`/`resize`/`reserve` left out |
| ApiSwap | `unsafe_api_swap` (include/dart/api_swap.h, all 18 functions) on that machine, beside it C++ variables that are declared, changed, finalized, definalized and leave their scope; declared C types of variables | what the two sides share is not modelled: objects are values, `clear` and `resize` (C16) are left out; that a `dart_heap_t` is smaller than a `dart_packet_t` is left out |
| LookupCost | the binary search of `object::get_key` with the list of table entries it compares the key with | one comparison counts once, whatever the length of the key; the results are proved to be those of the search in Read |
| Export | `share_bytes` of buffers and packets: the bytes pointed at and the length; with Own (programs) and `get_bytes`/`dup_bytes` modelled there | allocation always succeeds |
| CowFail | the statements of Cow when allocations fail: `copy_on_write` (any node, the control block), conversion of keys and values, growth of maps and vectors, new strings, objects and arrays, with the unwinding; `erase(iterator)` with its `catch (...)` | one failing allocation per statement; the standard containers give the strong guarantee; both kinds of counters (std and own) |
| Depth | the validator and `definalize` on a stack that holds a limited number of nested calls | the recursion argument of Validate and Read, here given by the caller; calls that do not recurse (generic_deref, lambdas) belong to the call that makes them |
| ViewMem | the library's `string_view` as pointer and length over one array of memory; programs over numbered views | pointers outside of the memory may be formed (only reading there is undefined); characters are bytes; the search functions are those of StringView (C27), on the characters |
| Place | `is_valid` on bytes that lie anywhere in memory | reading numbers at odd addresses, undefined in C++, is taken to work |
| ErrMsg | `err_handler`, `errmsg`, `dart_get_error`, with failing allocations | what the code under the handler does is any of its ways to end; the capacities of `std::string` are a parameter |
| Throwing | `valid_buffer<false>` with its messages, `validate` | as Validate; exceptions are `validation_error` |
| BufFail | making, taking over, exporting, copying and destroying buffers with failing allocations; each block of memory with the number of times it was freed | one allocation fails per statement; what conversions write is a parameter (C01); reference counts are left out (C17, C70): a shared block is freed when no variable has it; parts of buffers are left out (C35); deleters are stateless |
| Compare | `dart_equal`, `dart_heap_equal`, `dart_buffer_equal`: the dispatch on class and counter, `generic_compare` on two objects of any class | what memory two objects share is an arbitrary parameter; iterators are lists of keys and values |
| KeyAccess | `safe_optional_access`, `*_or`, `maybe_as`; `get`, `has_key`, `get_or` with a packet as key | `maybe_as` for packet classes, `at` with a packet as key (does not compile) |
| MapKeys | the conversions and comparison of `std::map`, `std::unordered_map`, `std::multimap`, `std::unordered_multimap` for keys of any scalar type; `noexcept` of `operator ==` | key types of users; the order of evaluation of the arguments of `emplace` (the key first here) |
| Constant | conversion and comparison of `std::integral_constant` | the text of the error |
| FloatCast | `float` in conversions and comparisons: rounding from and widening to `double` | which NaN it is; overflow is infinity (undefined in C++) |
| Stack | finalizing (`upper_bound`, `layout`), `json_serialize`, `==` and the destructor of dynamic values on a stack that holds a limited number of nested calls | calls that do not recurse, and those of the standard library in between, belong to the call that makes them; `layout` and `upper_bound` use the same room one after the other; RapidJSON's writer is outside |
| Order | what each step of the threads in Conc does: which counter it increments, decrements or reads, which channel it uses, which elements it reads or writes; happens-before and data races are specified from that (Spec/Order) | counters atomic; all changes of counters are read-modify-write operations, so that an acquiring operation sees everything released before; the values of counters themselves are still sequentially consistent (relaxed loads could return older values, which adds executions only for `std::shared_ptr`) |
| Recount | `transmogrify` of heap, buffer and packet, `dup_bytes` | the counters themselves; the loop of iterators is the order of the container |
| PktIter | `basic_packet::iterator`: construction, copy, move, assignment, steps, comparison, `*`, `bool`; `begin`, `end`, `key_begin`, `key_end`; `insert`, `set`, `erase` at an iterator | iterators kept while the packet changes; iterators into another packet of the same kind |
| Share | `shareable_ptr`, `make_shareable`, `view_ptr`, the operations of `refcount_traits` they use, handing over `unique_ptr`s, failing allocations of control blocks | `std::shared_ptr` as the standard describes it; objects without pointers of their own (C17 has them); ordering comparisons; `shareable_ptr<view_ptr>` |
| Container | `conversion_traits` of standard containers: to_dart, from_dart, compare | types are a grammar `CTy`; map keys are strings, set elements scalars; hash tables are lists in some order; `std::is_permutation` is modelled by its specification, with all comparisons it may make; spans, time points, integral constants are not modelled |
| Ordered | the endian wrapper | both host byte orders |
| ValidCost | Validate with a count of steps | a step is a call of `valid_buffer` or a table entry looked at |
| Typed | the wrappers `basic_object`, `basic_array`, `basic_string`, `basic_number`, `basic_flag` over `basic_packet` | a wrapper is a class tag and a packet; a step that would not compile does nothing; `basic_null`, mutators on rvalues, iterators, `inject`/`project` on wrappers, `operator T` other than `double`, `as_owner` left out |
| Sajson | `from_json` with sajson: `sajson_lower`, `json_identify`, `json_lower`, the constructors of `object` and `array` from `sajson::value` | sajson itself is a relation between documents (`Delivers`): which whole numbers come as integers, and in which order members come, is left open; its parse stack and errors left out |
| Optional | the bundled `dart::optional`: constructors, destructor, assignments, `emplace`, `reset`, access, comparisons | element type: values, and states left by a move or a failed assignment; which of its operations throw is part of the program; the overload conditions (`enable_if`) and conversions between element types are left out, as is `value() &&`, whose body does not compile |
| Variant | the bundled `variant`: constructors, destructor, assignments, `emplace`, `swap`, `index`, `get`, `get_if`, `holds_alternative`, `visit`, comparisons; visiting by `switch` and by table | objects as in Optional; which operations throw is part of the program, restricted by the `nothrow` traits; overload resolution (which alternative a value is converted to), `constexpr`, the trivial special members, hashing, builds without exceptions |
| Time | conversion of `system_clock` time points: to text, from text, comparison; `gmtime`, `timegm`, the `%d` of `sscanf`, `%0nd` of `snprintf` | time zone free C library in the Gregorian calendar; `sscanf`'s `%f` is a parameter constrained by `Standard`; `clock` units per second of the clock and `tick` clock units per tick of the duration are parameters; durations finer than the clock are left out |

## Per property plan

| id | what is modelled | how it is proved |
|----|------------------|------------------|
| C01 | `dart_comparator` | order laws by induction on the byte strings |
| C02 | vtable entry construction, `prefix_compare`, binary search on memory | loop invariant of the search; three negations by witnesses; completeness outside them |
| C03 | `layout`, object/array/string/primitive constructors as writes to memory, reader | writer refines a pure encoder (structural induction), reader inverts the encoder |
| C04 | `upper_bound`, allocation, writer with bounds-checked writes | size of encoding <= bound by structural induction; writer succeeds |
| C05 | addresses produced by the reader on the encoding | induction over navigation |
| C06 | encoder | injectivity from C03; determinism from the refinement (every byte fixed) |
| C07 | `is_valid` on arbitrary memory with checked reads and fuel | induction: never out of bounds, never out of fuel |
| C08 | all readers on arbitrary memory | invariant established by `is_valid` implies each read in range; two negations for what it does not establish |
| C09 | `is_valid` on the encoding | structural induction; negations by witness (nulls sharing an address) |
| C10 | as C07 | locality of reads; monotonicity |
| C11 | `each_unique_pair`, merge constructor, `realign` | loop invariant; result holds the union, byte identical to the encoder if the inputs are zero padded (`exact`) |
| C12 | merge constructor on an allocation of the code's size | witness of failure; sufficient conditions |
| C13/C14 | `project_each_pair`, projection constructor | as C11/C12 |
| C15 | heap API on a value-level state | refinement to an abstract map / sequence over histories |
| C16 | store with shared cells and reference counts | refinement of private values over all programs; negations for clear/resize on shared storage |
| C17 | `counted_ptr_base` over a store of control blocks whose objects own pointers | invariant: count = number of owners; negation for moving from a member of the released object |
| C18 | packet as sum of heap/buffer; programs over packet variables incl. parsing | simulation over histories by plain values |
| C19 | `json_serialize`, `heap_parser` stack machine | stack invariant by structural induction |
| C20 | JSON grammar, lowering with checked writes | length of text bounds size of encoding, induction over the grammar |
| C21 | heap comparison with arbitrary sharing | exact characterisation, structural induction; negations by witnesses |
| C22 | buffer comparison (memcmp shortcut and recursive) | both equal the value comparison on images; parsed buffers only one direction |
| C23 | generic comparison | structural induction; negations by witnesses |
| C24 | `get_nested_impl` | equals fold over split path; the path specification is a relation |
| C25 | accessors of both representations | case analysis / C02 |
| C26 | `identify_*`, casts | arithmetic on bit patterns against an independent definition of IEEE values |
| C27 | string_view functions | specification of each search; negations for all inputs in the wrong region |
| C28 | `ordered` | byte list reversal / bit vectors |
| C29 | `build_buffer`, `max_bytes` | sorting + C04 |
| C30 | inline string layout | byte-level write/read |
| C31 | `get_it` with an undefined index | result depends on the indeterminate value |
| C32 | insert at reference level | refinement; witnesses |
| C33, C39 | operators, increments, compound assignment | result is the double nearest to the exact rational result, ties to even, infinity from the overflow bound on, sign of zero as in IEEE 754 (`Spec/Arith.lean`) |
| C34 | bit trick on 64-bit vectors | arithmetic proof |
| C35 | buffers over several memory blocks with owners | invariant over all programs; negations for the span constructor |
| C36 | both inject/project implementations | from C11, C13, C15 |
| C37 | as C16 | count invariant over all programs; negation by witness |
| C38 | iterators | position invariant of the loop |
| C40, C41 | conversions and comparisons with native types | case analysis and arithmetic; negations by witness |
| C42 | `heap_parser` | structural induction against a relation "stands for" |
| C43 | `from_json` of buffers and packets | lowering of the sorted document equals the image of its value; negations by witness |
| C44 | container conversions | mutual induction over a grammar of C++ types; `Stands` relates container values with packet values; sorted lists are determined by their members; negations by witness |
| C45 | comparing packets with containers | mutual induction over the grammar: every comparison answers whether `Same` holds; counting of keys; permutations by search; finalized packets by a twin relation; negations by witness |
| C46 | `parse_yaml`, `parse_scalar`, `parse_maybe_number` | the machine simulates the JSON parser on the document the YAML document stands for; `strtoll` is computed, `strtod` a function with the C standard's law; negations by witness and, for keys that are no scalars, in general |
| C47 | threads on `basic_heap`: `counted_ptr_base`, `copy_on_write`, `push_back`, `pop_back`, `get`, `clear`, every memory access a step | invariant over all schedules: counter = number of references, one deleter when it is zero, written blocks have one reference; values are finite, so unreachable blocks do not keep each other; negations by witness |
| C48 | as C47, and an abstract machine on copied values | every step of the machine is nothing or one statement of the abstract machine; frame lemmas for values in memory |
| C49, C50 | `identify_vararg`, `parse_val`, `parse_vals`, `parse_pairs`, `*_init_va` | mutual induction over items; for arbitrary formats a relation `Asks` of the arguments asked for, by induction on the bound of the recursion; negations in general |
| C51 | `DART_FOR_EACH_IMPL` as a program of the C machine | induction over the elements still to come; negation for all aggregates and bodies; the loop without the second destruction proved right |
| C52 | the calls of `src/generic.cc` on live variables | simulation: memory holds what the abstract state says (`MemHeld`), kept by every allowed call, hence by every careful program (induction over the program) |
| C53 | the validator with a count of `valid_buffer` calls and table entries (`Model/ValidCost.lean`); verdicts proved to be those of `validBuffer` | negation: a family of accepted buffers of overlapping arrays, Fibonacci many calls, induction on the depth; `_partial`: induction over the value laid out; upper bound for all bytes: induction on the bytes left |
| C54 | wrappers and packets as a machine | invariant over programs, without any assumption on the values; negation: an object wrapper of every type |
| C55 | the same, `noexcept` exceeded is an outcome | the states of C56 and C54 together determine which steps throw where they may not; negations by programs |
| C56 | the same | simulation by observable states, built on the one for packets (C18) |
| C57 | `SDoc.drive`, `SDoc.lower`, `Buf.fromSajson` | the calls are those of RapidJSON's events, the bytes those of the other lowering (names at most 65535 bytes without NUL); sorted documents are fixed points of `Json.arrange`; bounds by induction without limits; negations by general theorem or witness |
| C58 | `World.step`, `Cmp.*` | refinement: the memory is a function of the standard's state, call by call; balance of created and destroyed objects by counting; comparisons by cases |
| C59 | `toDart`, `fromDart`, `compare` of time points | the calendar is specified by stepping day by day from 1970-01-01 and proved equal to the closed formulas by induction; text and scanning by round-trip lemmas per field; negations by evaluation |
| C60 | the store of C16 with iterators into it | refinement of positions in private values over all programs; the frame of every statement says which blocks keep their contents; loops by induction over the decisions; negations by programs |
| C61 | the store of C16 with views of variables and their parts | refinement of names for private values over all programs; storage reachable from a variable is not exclusively owned by another (counting), so the frame of every statement keeps it; negations by programs |
| C62 | the ownership of C35 with views | the block a view points into is owned by the variable it was made from: invariant over all programs that leave such variables alone; lockstep with the variable for parts; erasure of views; negations for all contents |
| C63 | the packets of C18 with chains of calls on temporaries and moves | each overload has the outcome of the one for variables up to memory a null lets go of; simulation as for C18; induction on the path; the missing `return` for all non-empty arrays |
| C64 | the machine of C52 with moves, take calls, JSON and pointers to raw bytes | simulation as for C52 with an invariant for the pointers and one that ties class and representation together; take and copy compared call by call; negations for heaps under new keys, finalized values, failing calls |
| C65 | the machine of C64 | the invariant of C64 says that all memory behind a finalized object is the one encoding of its value; the rest follows call by call |
| C66 | `dart_equal`, `dart_heap_equal`, `dart_buffer_equal` (Compare) on the objects in the variables of the machine of C64 | the comparison across classes by induction on the nesting of both sides against the relation `Looks`, which says what a search finds; the comparisons within a class by C21–C23 |
| C67 | `safe_optional_access` and the calls made of it, `maybe_as`, `get`/`has_key`/`get_or` with a packet as key (KeyAccess) | case analysis over the values of packet and key, on C18's invariant for packets of all programs; that conversions never run into undefined behaviour by induction on the C++ type |
| C68 | `transmogrify` (Recount) | induction on the value: each insertion appends to what was rebuilt so far; C18's invariant for bytes |
| C69 | iterators of packets (PktIter) | simulation: each iterator represents a position in the list of items; every operation preserves this; the loop by induction on what is left; changes by splitting the entries at the position |
| C70 | `shareable_ptr`, `view_ptr`, `refcount_traits` (Share) | refinement of groups of owners; invariant: each counter is the number of pointers to its block, and each object is either deleted once, in one `unique_ptr` or in one block |
| C71 | the bundled `variant` (Variant) | refinement: the memory is a function of the contents, call by call; dispatch by induction over blocks of thirty-two cases; exception guarantees read off the specification |
| C72 | the typed calls among the generic ones (AbiTyped) | invariant of C64 extended call by call; agreement with the generic call by cases; whole programs by simulation: the memory of the rewritten program is a function of the other's |
| C73 | programs over both interfaces (ApiSwap) | invariant of C72 extended to the C++ variables; types: the class of an object is the declared type of its variable, by induction over the program and cases over all calls |
| C74 | the search with the entries it looks at (LookupCost) | induction over the rounds: the entries lie between the bounds, without repetition, and `2 ^ rounds ≤ 2 * (high - low + 1)` |
| C75 | bytes handed out and taken back (Export), in the programs of C35 | parts are stored as they would be alone (induction over how a client gets at them); ownership invariant of C35; negation for all parts of all values |
| C76 | programs of C16 with an allocation failing in any statements (CowFail) | the simulation of C16 with a second case per statement: the invariant survives what was copied being destroyed again; negations by witness |
| C77 | the validator and `definalize` with room for `stack` nested calls (Depth) | upper bounds by induction on the value and on the bytes (a nested table with entries lies at least 16 bytes further, since its size field would otherwise be an offset below 16); lower bound for all accepted bytes by induction on the calls; negation by a family of documents |
| C78 | views as pointer and length (ViewMem) | simulation: each view shows a string of the specification, by induction on the program; printing characterised by an equivalence, negations for all texts |
| C79 | blocks and owners (BufFail) | invariant (freed once iff unowned, pointers exclusive) and simulation of a value semantics, by induction on the program; negations for all states |
| C80 | validator, reads, builders (Validate, Buffer, Equal, Builder) | the validator implies that each element and its extent lie in the bytes (`Safe`), reads and copies follow by induction; a part cut out is valid again and decodes alike; the writing loops stay in the allocation iff the sum of the padded fields does; the loops' result is described by an invariant (`Laid`: the fields lie behind one another, each entry points at its own), from which validity and the decoded fields follow; programs of any number of projections and merges (Spec/Chain) by induction: what one step lays out is tame and packed again; negations by witnesses |
| C81 | the validator in the middle of memory (Place) | the verdict is transported between memories that agree on the bytes and differ by a multiple of eight in the address (induction over the validator); negations by witnesses for each of the seven other addresses modulo eight |
| C82 | the throwing flavour of the validator, `validate` (Throwing) | simulation: each function of it throws where its silent counterpart returns false |
| C83 | `err_handler`, the thread-local message and pointers to it (ErrMsg) | induction over the history, with the last failure of each thread as specification; invariant: the message fits its memory |
| C84 | the text of `to_json` (JsonOut), the JSON grammar | the writer's text by structural induction over the value; it derives in the grammar; the grammar is unambiguous (induction over the length of the text); negations by witnesses |
| C85 | the search of Read on memory (no new model) | two memories that agree on table and candidates: every comparison of the search gives the same, induction over its rounds; a witness for long keys |
| C86 | the statements of Cow (no new model) | each helper keeps contents and number of blocks; copy on write adds one block; what runs behind it works on one block; refcount 1 from the invariant of C16 |
| C87 | the templates for maps with any scalar key (MapKeys), the outcome of a `noexcept` call | answers: induction on the type over packets in both states; for other keys: every lookup on an object throws (C67), and which check comes before it; agreement with C44/C45 for strings by induction on the list |
| C88 | `conversion_traits<std::integral_constant>` (Constant) | case analysis over the value held; finalized packets through the comparison of C23 and the native comparison of C41; the packet made for comparing may share nothing but equal values |
| C89 | rounding to single precision (FloatCast) | the conversion is the IEEE rounding of the value (nearest, ties to even, overflow bound), proved like that of doubles in C33; floats are rounded to themselves; the rest by C26 and C41 |
| C90 | the recursive functions over dynamic values with room for `stack` nested calls (Stack) | one relation for all (the outcome is that of the unlimited function, or the stack overflows and holds fewer calls than the value has levels) by induction on the value; needed calls by induction; negation by a family of programs |
| C91 | steps with their accesses and synchronisation (Order) | invariant over executions: whoever refers to elements knows all writes to them, and every access is known to the counter or to somebody who refers to them; negations by concrete executions, checked for all memory orders; the description of the steps is complete: what a step does not mention it neither depends on nor changes (frame theorems), what changes is mentioned as written, counted or sent (effect theorems) |
| C92 | the size bound and the layout (Layout) against the number of values and characters in a value (Spec/Weight, Spec/Size) and the rules of the format (Spec/Room) | induction over values: cost of each kind of value with its table entry, key and padding; monotonicity of padding for projections; the exact fit of C12 for merges; the layout of C43 for parsing, without its limit on the text |

## Disagreements between code and expectation found while modelling

Each has a theorem (negation, named `*_negation_*`, `*_wrong`, `*_false`, ... in the property's file)
unless marked "(noted)", which means it was seen while reading and is not part of a theorem.

1. Prefix comparison uses plain `char`: where `char` is signed, keys of equal length with first bytes
   >= 0x80 are ordered differently from the object's order, so lookups miss (C02).
2. A lookup key of exactly 255 bytes compared with an entry for a longer key is compared on prefixes
   instead of by length (C02).
3. Table prefixes/lengths are taken from `char const*` (strlen), so keys with embedded NULs are missed (C02).
4. `merge_buffers` under-allocates (C12).
5. `project_keys` under-allocates when more keys are requested than the base has fields (C14).
6. `is_valid` rejects legitimate buffers with nulls (C09), and accepts booleans other than 0/1 and
   unsorted keys (C08); overlapping children make it take exponential time (noted).
7. `clear`/`resize`/`reserve` do not copy on write (C16).
8. Self insertion creates a reference cycle (C32) that leaks (C37); inserting a non-const lvalue under an
   existing key empties the variable (C32).
9. `find`/`find_key` on finalized objects return an uninitialised index for a missing key (C31).
10. `T - number` and `T / number` are evaluated with swapped operands (C33).
11. `boolean()` on a finalized number does not check the type; `front_or`/`back_or` throw on finalized
    packets; `erase` with a bad key on a finalized packet throws type_error instead of state_error;
    `at(index)` on non-arrays throws different exceptions in the two representations (C18).
12. Dynamic string equality stops at the first NUL (C21); NaN and -0.0 compare differently depending on
    representation and sharing (C21, C23).
13. Cross-representation equality identifies missing keys with null values (C23), and a finalized object
    with keys lookup misses (1-3) does not equal its own dynamic value (C23).
14. Increment and compound assignment of integers go through double (C39).
15. The rapidjson constructor keeps duplicate names and accepts names above 65535 bytes (C43).
16. Key and value iterators at the same position compare equal (C38).
17. JSON numbers from 2^63 to 2^64-1 become negative in the dynamic parser (C42) and decimals in the
    buffer parser (C43).
18. Memory of parsed buffers is not cleared, so buffers parsed from the same text may compare unequal (C43).
19. Integer casts truncate silently (C40); comparisons with native numbers round int64 to double (C41).
20. `basic_buffer(gsl::span)` keeps pointing at the caller's memory (C35).
21. `rfind`, `find_first_not_of`, `find_last_not_of`, `find_last_of` with a position, `find(c, npos)` of the
    bundled string_view are wrong (C27).
22. Strings of 2^32 bytes and more overflow the allocation in finalize (C04, C29).
23. `inject`/`make_object` of dynamic objects with an odd number of arguments read past the end (C15).
24. `ordered -= narrower unsigned` wraps in the wrong width (C28).
25. Move assignment of a counted pointer from a member of the object it releases uses freed memory (C17).
26. `get_nested` ignores a trailing separator (C24).
27. Converting back from packets: an optional containing an empty optional comes back empty; a variant comes
    back as the first alternative that takes the packet, truncating integers and reading anything as bool (C44).
28. Comparing packets with containers: an array longer than an equal `forward_list` makes the comparison read past
    the end of the list; keys of the packet that a multimap does not have are ignored, so that every object equals
    the empty multimap; a map to optionals equals an object with other keys (C45).
29. YAML: a sequence or mapping as a key is undefined behaviour or silently gives a wrong value; quoted scalars are
    resolved like plain ones; `08.5` is a string; a NUL cuts the text that is compared (C46).
30. `clear` on elements shared with another thread races with its reads, and empties its packets (C47, C48).
31. (noted) With `std::shared_ptr` (the default) `copy_on_write` asks `use_count()`, a relaxed load that does not
    synchronise with the release by another thread; the theorems C47, C48 are about `skinny_ptr`. Proved as C91, see 91.
32. C initialisers: `unsigned long` from 2^63 on becomes negative (C49); on an error `*dst` is not null but a partly filled
    aggregate, and the functions that return null leak it (C50).
33. `dart_for_each` destroys the loop variable twice at the end of every loop, and uses an uninitialised iterator for a
non-aggregate (C51).
34. `dart_to_buffer` is documented to copy finalized arguments but refuses all finalized values that are not objects (C52).
35. The validator only asks children to start at increasing addresses, not to be disjoint. Buffers of 48n+48 bytes made of
    overlapping arrays are accepted after at least 2^n calls of `valid_buffer`, and show documents of at least 2^n values (C53).
36. `finalize`, `definalize`, `lower` and `lift` of an object wrapper return a mutable reference to the packet inside, so an
    object wrapper can be made to hold anything (C54).
37. Constructing an object or array wrapper from an rvalue packet of the wrong type throws and loses the packet (C54).
38. `+=`, `-=`, `*=`, `/=`, `++`, `--` of a number wrapper are `noexcept` but throw for a number read from a finalized
    packet, which ends the program (C55).
39. The accessors of wrappers are `noexcept` but throw for a wrapper that was moved from (C55).
40. (noted) `operator T` with an integral `T` on a decimal out of range is undefined; the literal `""_dart` wraps above 2^63-1.
41. `at_front()&&`/`at_back()&&` of packets lack a return statement, undefined behaviour on every non-empty array (C63);
    (noted) `basic_buffer::at(KeyType)` calls `identifier.at_type()` and does not compile when used; `basic_packet::upper_bound` is
    noexcept while the heap's throws (`C29_negation_large_argument`); `share_bytes` of a nested object shares the root;
    the JSON writer truncates strings of 2^32 bytes and writes nothing for NaN/Inf; time points lose fractions of seconds.
42. With sajson, `buffer::from_json` of an array is not refused; the bytes are taken for an object and reading goes out of
    bounds (C57).
43. With sajson, names of more than 65535 bytes are stored with their length modulo 65536 (C57).
44. With sajson, `buffer::from_json` relies on sajson for the order of members; out of order they are not found (C57).
45. With sajson, whole numbers beyond what sajson takes for an integer (32 bits) become decimals (C57).
46. `optional::value() &&` and `value() const&&` bind an rvalue reference to an lvalue and do not compile when used
    (optional.tcc 229-239); the converting assignments are disabled for sane types (`assignment_conversion_check` is
    inverted); `>` and `>=` with `nullopt` are missing; `value_or` converts the contained value to the common type with
    the default first, so `optional<int64_t>::value_or(0.f)` rounds (C58; outside the model).
47. Time points lose their fraction towards 1970, so all instants less than a second before or after 1970 become the same
    packet and compare equal (C59).
48. The seconds of a date are read as a `float`: `59.999999` becomes 60 (C59).
49. Time zone offsets in a date are ignored (C59).
50. Dates after April 2262 overflow the nanosecond clock, `nan` seconds are cast to `int`, and numbers beyond `int` are
    given to `%d`: undefined (C59). A failure of `gmtime` goes unnoticed (outside the model).
51. `clear`, `resize` and `reserve` of a value that shares storage invalidate the iterators of the other owners: using
    them is undefined (C60; the missing copy on write of 7).
52. Inserting into an object invalidates its iterators exactly if its storage is shared at that time, which a client cannot
    see from the iterator; `std::map` semantics hold only for unshared objects (C60, `C60_insertion_may_invalidate`).
53. A view of an object or array follows later changes of the variable, a view of a scalar or string is a copy and does
    not; assigning a scalar to the viewed variable makes the former undefined to use (C61, `C61_copies`, `C61_type_change`).
54. Clearing or resizing a copy changes what views of the original show, and makes views of its parts dangle (C61; the
    missing copy on write of 7). A view of a part dangles after an insertion exactly if the storage was shared at that
    time and the other owner goes away (`C61_parts_may_dangle`).
55. A view of a finalized buffer keeps the old raw pointer when its variable is assigned or moved from (views of dynamic
    values follow the variable, 53), and `as_owner()` combines that pointer with whatever the variable owns by then: the
    result reads memory it does not own (C62, `C62_negation_assigned`, `C62_negation_as_owner`, `C62_negation_moved`).
56. The `take` calls are documented to leave null in the variable they take from (abi.h 5655-5681). A heap that is stored
    under a new key is copied and stays (`C64_new_key_wrong`); a finalized value always stays (`C64_finalized_wrong`).
57. A `take` call that fails destroys its argument if that is a dynamic packet (`C64_failure_loses`); a heap survives
    (`C64_heap_kept`).
58. `dart_move` of a finalized packet leaves a finalized null, not a default constructed packet (`C64_moved_finalized_wrong`).
59. `dart_from_json_*_err` and `dart_take_bytes_*_err` leave a live null packet when they fail, unlike the other calls that
    make an object, but nothing if the kind of counter is unknown (`C65_failed_parse_live`, `C65_failed_parse_not_live`): a
    caller who destroys the variable, or who does not, is wrong in one of the cases. `dart_take_bytes` frees the bytes when it
    fails (`C65_failed_take_frees`). None of this is documented.
60. `dart_equal` is not symmetric: across classes the second side is searched for what is in the first (or the other way round), and
    a missing key counts as null (`C66_not_symmetric`).
61. It is documented that objects with different counters are always unequal. Scalars, finalized objects and objects of
    different classes are compared as if they had the same (`C66_counters_matter_sometimes`); two dynamic aggregates of the same
    class are indeed never equal (`C66_dynamic_counters_unequal`).
62. A finalized packet and a buffer are compared by looking up keys, two buffers or two finalized packets by their bytes, with
    different answers (`C66_finalized_classes_disagree`).
63. `dart_heap_equal` compares a copy of its left argument, so that a heap with NaN is not equal to itself (`C66_typed_self_differs`).
64. `get_or` with a packet as key is documented to return the default if the key has the wrong type. On an array, a key that is
    not an integer makes it throw (`C67_get_or_wrong`); on an object it does return the default (`C67_get_or_partial`).
65. `at` with a packet as key calls `identifier.at_type()`, which no class has (include/dart/heap/api.tcc 388,
    include/dart/buffer/api.tcc 220, 233), so any use of it fails to compile. Not modelled.
66. `dart_arr_init_va`, `dart_arr_init_va_rc` and their `dart_heap_` forms never call `va_end` (src/generic.cc 875-882, 892-899,
    src/heap.cc 755-762, 772-779), which the C standard makes
    undefined behaviour; without effect with the usual compilers. Not modelled.
67. `transmogrify` of a finalized packet copies its bytes with `dup_bytes`, which throws unless the packet is an object. So a
    string, a number, an array or null taken out of a finalized packet cannot be given another counter (`C68_part_wrong`),
    although the same value can if it is dynamic (`C68_part_dynamic`). Nothing in the documentation says so.
68. `make_shareable` makes a `shareable_ptr` whose member is not constructed yet; if constructing the object throws (no memory
    for the fields of a new object, say), its destructor resets and destroys that member (`C70_make_undefined`).
69. Handing a `unique_ptr` to a `shareable_ptr` around `std::shared_ptr`: if the control block cannot be allocated, the object is
    deleted twice (`C70_double_delete`). Handing over a new object to a `shareable_ptr` around the library's own pointers: it leaks
    then (`C70_leak`). `std::move(p.raw())` assigned to `p` is undefined (`C70_own_raw`). A `unique_ptr` that is null, handed
    over, makes a control block that owns nothing: use count 1, deleter called with null, and `unsafe_ptr` and `skinny_ptr`
    say they are not null (`C70_null_owner`).
70. The typed calls of the C interface differ from the generic ones: storing a heap with the other kind of counter is a client
    error for `dart_heap_obj_insert_heap` and so on, a type error for `dart_obj_insert_dart` (`C72_mixed_counters`; include/dart/abi.h
    documents neither). With a kind of counter there is not, `dart_take_bytes_rc` has freed the bytes when it reports the error,
    `dart_buffer_take_bytes_rc` has not (`C72_bytes_kept_wrong`); abi.h says of both that they take ownership.

71. `dart_copy` and `dart_move` return a `dart_packet_t` in which there is a heap or a buffer, if that is what they were given. All C
    calls look at the class and work, but `unsafe_api_swap(dart::packet&, dart_packet_t const*)` looks at the kind of counter only and
    takes the memory for a packet: undefined behaviour in a program without casts (`C73_class_unchecked_wrong`). If these two calls are used between
    variables of one type it cannot happen (`C73_types_partial`).

72. `share_bytes` of a part of a finalized object (`obj["k"].share_bytes(ptr)`), of any type but null, gives out the bytes and the length
    of the whole object, where `get_bytes` and `dup_bytes` give the part's or throw; a buffer made from them shows the whole, not what
    was exported (`C75_share_part_wrong`; include/dart.h: "allows the network buffer of the current packet to be exported"). For
    whole objects all three agree (`C75_share_partial`, `C75_share_bytes`).
73. When memory runs out: `make_object()` and `make_array()` are undefined instead of throwing `std::bad_alloc`, because
    `make_shareable` destroys a pointer it has not constructed (`C76_make_undefined`, see C70); with the library's own counters
    `copy_on_write` loses the copy if its control block cannot be allocated (`C76_copy_lost`); `erase(iterator)` of an object
    reports missing memory as `type_error` ("iterator of wrong type", include/dart/heap/api.tcc 243-249; `C76_erase_misreports`).
    By the same defect as `C70_double_delete`, `basic_buffer::normalize` (include/dart/buffer/detail.tcc 43-52) hands `ptr.get()` to a new owner and
    releases `ptr` after that: with `std::shared_ptr` a failing control block deletes the bytes twice.
74. Nothing limits how deep `is_valid` and `definalize` recurse: sixteen bytes of untrusted input cost one nested call (several
    stack frames), so a buffer of a few megabytes that is otherwise valid overflows a usual stack while it is being validated
    (`C77_no_limit`).
75. Printing a `dart::string_view` prints up to the next NUL in memory, not up to the end of the view: the rest of the C string for a
    part of it, less for a view with an embedded NUL, undefined for default-constructed views and where no NUL follows. The code says
    so itself ("Not standard compliant"). `compare(offset, count, const char*)` is `noexcept` and ends the program where the standard
    throws (`C78_stream_beyond`, `C78_stream_cut`, `C78_stream_undefined`, `C78_compare_ends`).
76. `basic_buffer(std::unique_ptr&&)` hands the pointer to the reference counter while a `unique_ptr` parameter still owns it. If the
    control block cannot be allocated, `std::shared_ptr` calls the deleter and the parameter calls it again: the bytes are freed twice.
    With the counters of the library they are freed once, but the caller's pointer is empty. `aligned_alloc` says that it associates
    the memory with an owner "in case anything goes wrong", and with the counters of the library loses it if making that owner goes
    wrong (`C79_take_frees_twice`, `C79_take_loses`, `C79_build_leaks`).
77. `is_valid` checks that every field lies in the object, not that the fields are apart or the keys distinct and in order. `inject` and
    `project` allocate by the size of the object and copy field by field: 64 accepted bytes with one field inside of another make both
    write past the end, and so does projecting an object with a repeated key on that key (`C80_negation_overlap`,
    `C80_negation_repeated`). For ordered keys `C80_project_exactly` and `C80_inject_nothing_exactly` say precisely when.
78. `make_object` copies the bytes of a key that is in a buffer as they are. A key stored in the form for strings above 65535 bytes,
    which `is_valid` accepts whatever the length, gets a four byte length where lookups expect two: the object made has another key,
    and reading its value reads outside of the buffer (`C80_negation_long_form_key`).
79. `is_valid` accepts bytes whose recorded size is no multiple of eight. `project` allocates that size but records the padded one, so
    the result says it is larger than its allocation: exporting, copying or comparing it reads past the end
    (`C80_negation_unpadded`; `C80_project_result_partial` for multiples of eight).
80. `project` and `merge` pack the fields. Nulls that were stored apart in accepted bytes end up at the address of the next key,
    which `is_valid` refuses (see 6): the result of projecting accepted bytes need not be accepted (`C80_negation_nulls`).
81. `is_valid` and `validate` take bytes at any address, compare absolute addresses of the elements with their alignment, and find values
    of objects by aligning absolute addresses, but never look at the address of the whole. Bytes that were accepted in a network buffer,
    behind a header of three bytes say, are read beyond their end once they were copied to a multiple of eight, where all constructors but
    one demand them to be (`C81_negation_accepted`, for each address that is no multiple of eight); good ones are refused
    (`C81_negation_refused`, `C81_odd_addresses`). The constructor from a span takes any address ("need not be well aligned") and makes an
    aligned copy, but reads the bytes where they were (see 20): it finds wrong values (`C81_negation_span`). For multiples of eight it is
    right (`C81_aligned_partial`).
82. An element of an array that is of no known type is reported by `validate` as "Serialized object value is of no known type"
    (array.tcc 301-308): the message was copied from the object (`C82_array_message_wrong`).
83. The C interface promises error codes, but `err_handler` is `noexcept` and copies the message into a `std::string` in its catch clauses.
    If a call runs out of memory and there is none for the 73 characters of "Dart caught an unexpected error type…" either, the program
    ends (`C83_negation_ends`, `C83_negation_ends_exception`; not once a longer message was recorded, `C83_prepared`). Running out of
    memory is called a bug to be reported, and a client error may become one (`C83_memory_partial`).
84. `to_json` of a value with NaN or an infinity in it gives, without an error, text that is no JSON (`{"a":}`, `C84_nan_breaks_object`) or
    the text of another value (`[NaN]` gives `[]`, `C84_nan_vanishes`); abi.h 7432 promises valid JSON. The flag `write_nan` is
    meant for this, but `to_json` of `dart::object`, `array`, `string`, `number` and `flag` takes flags and does not hand them on
    (include/dart/connector/json.tcc 221-249, `C84_wrappers_drop_flags`). `dart_to_json` and its typed forms do not look at the result of
    `malloc` (`C84_c_no_memory`).
85. (noted) IMPLEMENTATION.md says that a lookup leaves the table only at a potential match. For keys of more than 255 bytes it reads
    every name of at least 255 bytes it comes by, the two characters in the table are not used (`C85_long_keys`). Only time is lost.
86. Mutators copy before they check. A call that throws (`set` of a field that does not exist, `insert` at an index past the end, a key that
    is too long) has by then given the value its own storage: nothing one can see has changed, but a whole level was copied for nothing and
    the sharing is lost (`C86_failing_calls_copy`; include/dart/heap/api.tcc 118-202). Only time and memory are lost.
87. Maps of the standard library with keys that are not strings are accepted by the templates (include/dart/conversions.h 600-923) but do
    not work. `p == m` for a `std::map<int, T>` and an object `p` of the same size, which is not zero, throws a type error inside a `noexcept`
    function and ends the program; for a `std::multimap` that is not empty any object does (`C87_map_comparison_ends_program`,
    `C87_multimap_comparison_ends_program`). Such a map can only be converted to a packet if it is empty, and an object only to a map from
    integers or doubles if it is empty; both is a type error otherwise (`C87_no_conversion_to_packets`, `C87_no_conversion_from_packets`). An object
    does convert to a `std::map<bool, T>`, but every key becomes `true` and all fields but the first are lost without notice
    (`C87_bool_keys_lose_fields`). `is_castable` and `are_nothrow_comparable` are true for all of these types.
88. Converting a packet to `std::integral_constant<T, val>` compares it with the number `val`, comparing the packet with the constant compares
    it with a packet made of `val` (include/dart/conversions.h 1574-1587). They disagree: the decimal 5.0 converts to
    `integral_constant<int, 5>`, but `packet == integral_constant<int, 5>{}` is false (`C88_converts_but_differs`). Above 2^53 even
    decimals of another value convert (`C88_accepts_another_number`).
89. Like the other native types (40, 41), `float` is treated differently by conversion and comparison: the integer packet 5 equals `5.0f` but
    `as<float>()` on it is a type error (`C89_equal_integer_does_not_convert`), and integers above 2^53 equal floats of another value
    (`C89_large_integer_wrong`). `as<float>()` converts decimals beyond the range of `float` without a check, which the C++ standard leaves
    undefined; with IEEE 754 arithmetic the result is infinity.

90. No function over dynamic values limits the nesting: finalizing, writing JSON, comparing two equal values and destroying a value take as
    many nested calls as the value is nested (`C90_levels_needed`), while building it takes none: a loop of `make_array` and `push_back` makes
    a value of any depth, and the destructor at the end of the scope overflows the stack (`C90_no_limit`). `heap_parser` and `parse_yaml` keep
    their own stacks (json.tcc 41-44, yaml.tcc 64-67), so dart's part of parsing does not recurse either and hands over what the parser accepts.

91. With `std::shared_ptr`, the default, copy on write has a data race (`C91_shared_ptr_races`): thread 1 reads a shared array and lets go of
    it, thread 0 then sees `use_count() == 1` (heap/detail.tcc 55-61) and changes the elements in place. Reading `use_count()` does not
    synchronise with the release, so nothing orders the read before the write, against "the copy-on-write semantics across packet instances IS
    thread-safe" (dart.h 5056-5059). `skinny_ptr` has no such race; exactly the check has to acquire, and decrements have to acquire and release
    (`C91_orders_needed`). With `std::shared_ptr` this race is the only one: an execution in which a thread checks the counter of elements that another
    thread has let go of only after it knows of that by other means has no data race (`C91_shared_ptr_partial`). Threads that only read never race
    (`C91_reading`), which covers finalized packets.

92. A projection of a finalized object allocates as many bytes as the whole object takes, whatever was asked for (`C92_projection_keeps_size`;
    common.tcc 270-272, "maximum required size is that of the current object, as the new one must be smaller"). The result is indeed never larger
    (`C92_projected`), which does not keep the constructor from writing beyond it on the way (entry on C14).
    Merging (`inject`) has no limit on the size, as `make_object` has none (C29) while finalizing has: the size recorded is the lower 32 bits of
    the size (`C92_merged_size`). Two objects of 2 GiB, merged, give an object whose recorded size is 48 bytes (`C92_negation_merge_no_limit`;
    common.tcc 252-258 computes the sum as `size_t`, object.tcc 384-442 stores 32 bits), so that `get_bytes` and `dup_bytes` hand out 48 bytes.
    `from_json` of buffers has no limit either (json.tcc 190-195: 8 bytes are allocated for each byte of the text, whatever that comes to): if
    each member by itself is below 4 GiB, the size recorded is the lower 32 bits (`C92_parsed_size`); a text with two strings of 2 GiB gives an
    object of 48 bytes (`C92_negation_parse_no_limit`). RapidJSON is taken to parse such texts; its own lengths have 32 bits, which suffice here.

## Trusted base

* The Lean 4.33 kernel. Nothing of Mathlib is imported.
* Axioms: at most `propext`, `Classical.choice`, `Quot.sound`; listed per theorem in `AXIOMS.md`
  (written by `gen_axioms.py` from `#print axioms`).
* The correspondence between the C++ text and the Lean definitions, which is by reading: no C++ was
  compiled or run. Mutation tests of the model are logged in `seeded/LOG.jsonl`.
* `std::map`, `std::vector`, `std::sort`, `std::lower_bound`, `strlen`/`memcmp`/`strcmp` by their standard
  specification; IEEE 754 binary64 arithmetic with round to nearest even for the hardware's double operations.
* RapidJSON: its reader delivers the events/DOM of the document the JSON grammar assigns to the text (one document only,
  `C84_one_document`). Its writer is modelled in JsonOut; that finite doubles are printed as JSON numbers is assumed.
* sajson: hands over the document of the text as `Delivers` says.
* libyaml: its parser delivers the events of the document; it deletes nothing twice (`yaml_event_delete` after a failed
  parse is not modelled). `strtod` as stated in `Strtod.Standard`.
* `gmtime`, `timegm`, `snprintf` and `sscanf` as modelled in Model/Time.lean; `%f` as stated in `Spec.Time.Standard`.

## Not modelled

Allocation failure except where named (C70 shared pointers, C76 statements on dynamic values, C79 making buffers, C83 and C84 the C interface), weak memory orders (the values threads read from counters are sequentially consistent; C91 says which accesses are ordered under weaker orders), the rapidjson/sajson parsers themselves (only their event/DOM
interface), libyaml's parser, the C ABI (`abi.h`) except the variadic initialisers and the calls named under AbiCalls, AbiMove, AbiTyped, ApiSwap and Compare, hashing, compile-time template constraints, iterator categories,
`long double`, views of packets.
