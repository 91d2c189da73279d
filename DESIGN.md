# Formal model of s2s: design

Target: the C++23 header library pinned in `/repo` (read as text only; never
built or run). Prover: Lean 4.33.0 with core `List`/`Int`/`Nat`; Mathlib is not
needed for the model. All Lean sources are under `lean/Verif/`.

## Trusted base

* Lean's kernel and the three standard axioms `propext`, `Classical.choice`,
  `Quot.sound`. No axioms of our own, no `sorry`, no `native_decide`, no
  `bv_decide`. `lean/Verif/Axioms.lean` prints the axioms of every property
  theorem.
* The reading of the C++ source expressed by the definitions in
  `Verif/Model/*.lean`; each cites the file and lines it mirrors.
* C++ facts assumed: two's complement; 8-bit bytes; `int` is 4 bytes; integral
  conversions modulo 2^n; object representation of an integer is its bytes in
  host order without padding; `std::array`/C arrays are contiguous;
  `std::string_view(const char*)` is `strlen` based; `std::vector::resize`
  throws when asked for more than `PTRDIFF_MAX` bytes.

## Architecture

1. `Model/Bytes`, `Model/Val`: bytes, integer types, conversions, host and
   wire representation, `byteswap`.
2. `Model/Stream`: the library only ever calls `s.read(ptr, n)` and
   `s.write(ptr, n)` and looks at the boolean afterwards. A read is modelled as
   a tree of such calls (`Rd`: `read n` with one continuation per delivered
   byte string, plus `alloc` events for `resize`), a write as a chain of `write`s
   (`Wr`). Trees are then *run* on arbitrary user-supplied streams (any state
   type, any behaviour), so that no stream implementation is baked in. Undefined
   behaviour, an escaping exception and "this would not compile" are a distinct
   outcome `stuck`.
3. `Model/Schema`: deep embedding of the descriptors (`field`, `maybe_field`,
   `union_field`) including nested records. Callables (predicates,
   computations, user constraints) are arbitrary total functions of the sibling
   values.
4. `Model/Read`: `struct_cast_impl`, `read_field`, `read_impl`.
   `Model/Write`: `stream_cast_impl`, `write_field`, `write_impl`,
   `derived_value.hpp`.
   `Model/Calls`: the casts with every call of user code as an event, answered by a
   `World`: any state, any answers, exceptions (C92-C97). Elsewhere callables are
   functions; C93 says when that is enough.
   `Model/Memory`: the reader once more, with the copies it makes of containers (C86);
   C12 and C72 count `resize` only.
5. `Model/Meta`: `static_set`, `static_map`, `sort_ranges`, field table,
   dependency tables and checks, option packs, `operator[]` policy, type ids.
   `Model/Decl`: C++ types, the concepts that classify them, descriptors and type
   tags (which lists of declarations can be spelled), which casts can be instantiated,
   and the schema a list of declarations stands for (`elabList`); `Model/Inst`: which
   casts can be instantiated if records, arrays and vectors of records are given sizes
   the descriptors do not give them. `Model/Range`: the
   range constraints, which no program can use. `Model/Compare`: constraints over
   floating-point numbers and arrays, with the conversions of their arguments.
   `Model/Containers` has the same containers as arrays with `unsigned` and `std::size_t`
   counters and a limit on the rounds of a loop; C121 relates the two.
6. `Spec/*`: the independent specification.
   * `Format`: the wire format (`wire`), and when a struct is a valid parse of
     its schema (`Valid`): it fits types, widths and ceilings (`Fits`), its
     constraints hold (`Ok`), and lengths, presence and selection agree
     (`Shaped`).
   * `Settle`: what the writer is meant to put in the slots it fills
     (`produced`, `slotValue`, `settle`), and the structs that fit apart from
     those slots (`Storable`). `Everywhere P` states a condition on every list of
     fields of a schema, nested ones included. `SelfConsistent` is such a
     condition (round trips hold), `Rewritable` (`Spec/Rewrite`) another.
   * `Typed`: structs as the C++ type system admits them (`Typed`), lengths of
     containers inside optionals and unions that are in play (`ActiveLen`),
     schemas whose constraints fit their fields (`WriteSafe`).
   * `Sent`: which struct is sent when a struct is written, for every schema (C115);
     unlike `settle` it needs no `SelfConsistent`.
   * `Refused`: which bytes a read refuses, at which field and for which reason (C118).
   * `Unsent`: which structs a write refuses, at which field, for which reason and after
     which bytes (C119).
   * `Overflows`: which field a stream with so much room has no room for (C120).
   * `Numeral`: the number a byte string denotes (`numeral`), nested lists at any
     depth (`Inside`).
   * `Order`: byte order positionally (`InOrder`, `EachInOrder`).
   * `Names`, `Tables`: names by position (`Distinct`, `Backward`), limits of the
     tables, which fields are derived or constant, what an option pack provides.
   * `Made`: the structs a program can hold: default construction, parsing, assignment
     through `operator[]` (C107, C108).
   * `Amalgam`: what headers need, orders that respect includes, the lines of a text that
     are includes (C109-C111).
   * `Decl`: buffers with elements (`solidDecls`), obstacles to instantiation
     (`clearDecls`).
   * `Select`: which case a switch or ladder selects. `Streams`: stream
     contracts and the streams of /repo.
7. `Props/*`: one theorem (or a few) per property, stated with `Spec` notions,
   each followed by an `example` that exhibits a non-trivial case meeting the
   hypotheses.

8. `Conformance/*`: the test vectors of /repo/test (constant-evaluation tests, run-time
   tests without such a counterpart, the programs of must_not_compile, documentation
   examples, shipped_header, /repo/examples) evaluated in the model.
   `Conformance/Amalgam` has the include graph of /repo/include and the order of the
   headers in /repo/single_header. These are tests of the model against the expectations
   /repo states for the code, not proofs; no claim rests on them.

Central theorems: *reader = format* (a read delivers `v` after consuming `p` if
and only if `v` fits, agrees and `p = wire v`) and *writer = format* (a
successful write emits `wire` of the settled struct, which is `Valid`; and every
valid struct of a rewritable schema is written). Most properties follow from these two.

## Modelled / not modelled

Modelled: `include/cast/*`, `include/field_read/*`, `include/field_write/*`,
`include/field_size/*`, `include/field_compute/*`, `include/type_deduction/*`
(evaluation), `include/field_validation/*` (constraints over integers, floating-point
numbers, `std::array`, `fixed_string`, user functors), `include/field/field_options.hpp`,
`include/field_list/*`, `include/api/*`, `include/field/field_traits.hpp`,
`include/lib/s2s_traits/type_traits.hpp`, `type_tags.hpp`,
`include/stream/*`, `include/lib/memory/*`, `include/lib/containers/*`,
`include/lib/algorithms/*`, the counter in `include/lib/metaprog/mp.hpp`,
`test/utils/constexpr_memstream.hpp` as one instance of a stream;
`scripts/amalgam.py` (paths abstract, all files readable, what it prints left out),
`scripts/check_nav.py`, `scripts/check_doc_examples.py` (texts as lists of lines, what they
print left out).

Floating-point values are the unsigned integers with the same bytes in memory
(`Decl.bitsOf`, C81): the library copies them, and does not compile for them in the
foreign order. Callables over them are functions of those bits; constraints compare the
numbers they stand for (`Model/Compare`, IEEE 754 binary32 and binary64), after
conversions that round as the implementation chooses (`Rounding`).

Not modelled: the casts of lists with variable-sized fields, or unions spelled
by hand with other sizes than the descriptors give them, or of several of the kinds that follow in one list (other than C153 and C166) (whether they compile is: C98, C165; fields of fixed size,
optionals and elements without elements are, at any depth: C135, C139, C145, C148, C151; so are arrays of
records: C153, Model/Counted; so are records, and vectors of records without a length: C166, Model/Sized; so are lengths that are floating-point numbers, in the list itself: C162,
Model/FloatLen, also of optionals: C164, Model/FloatOpt; and discriminants that are, with labels that are integers: C163, Model/FloatTag); compile-time diagnostics text; `single_header/s2s.hpp` (compared as text with
`include/`: it contains every header but the unused `static_array.hpp`, unchanged up to
comments, white space and `#include`s);
compile-time limits other than the ones named
in a theorem (256 fields, 64 dependencies, 1024 type ids).

Simplifications are stated at each definition.

## Properties

Status lives in `MANIFEST.json`; findings (disagreements between code and
documentation, each with a machine-checked witness) are collected at the end. The
anchor of C52 names `include/field_read/type_impl.hpp`; the file is
`include/type_deduction/type/type_impl.hpp`.

| id | what is modelled and how it is proved |
|----|----------------------------------------|
| C01 | `Wr` output of a settled struct is `wire`; `wire` of a fitting, agreeing struct is accepted by `Rd`. Structural induction over schemas. Unsettled structs via C40 |
| C02 | converse composition, for schemas whose derived slots are full width or little endian |
| C03-C05 | generic facts about `Rd` trees (paths, prefixes, labels), by induction on trees |
| C06 | any two contract-abiding streams simulate the list stream |
| C07, C08 | reader soundness (`Valid`) |
| C09, C10 | reader/writer unfolding at the first failing field; label predicates |
| C11-C13 | arithmetic of `checked_byte_count`; weakest-precondition over `alloc` events; tree equality |
| C14 | label predicates over trees |
| C15-C18 | `derive` characterised; non-truncation arithmetic; negation witness for verified lengths |
| C19 | frozen branch; negation witness for lossy constants |
| C20-C22 | unfolding of the optional/union/conditional-length branches |
| C23, C24 | output of `Wr` trees; prefix invariant for arbitrary output streams |
| C25 | positional byte weight characterisation for both hosts |
| C26 | element-wise and bulk trees agree on `memstream` in result and state; negation witnesses on other streams |
| C27 | weakest precondition without `stuck`, for a syntactic class of schemas; negation witnesses outside it |
| C28-C32 | functional models of the compile-time tables |
| C33, C34 | arithmetic characterisation; negation witnesses |
| C35, C36 | unfolding + arithmetic |
| C37, C38 | corollaries of C01/C03 |
| C39 | unfolding of the writer at nested fields |
| C40, C41 | writer is invariant under `settle` when callables do not read library-filled slots; negation witness otherwise |
| C42 | binary search over "ids below k are taken" |
| C43 | bubble sort: permutation and sortedness |
| C44 | run of trees on arbitrary streams |
| C45-C47 | C01, C37, C38 in full for self-consistent schemas |
| C48 | C40 in full when no callable looks at a slot: equality of write trees |
| C49 | C02 in full for rewritable schemas |
| C50 | structural induction: the writer of a typed struct has no `stuck` leaf |
| C51-C54 | C15-C18 in full under the conditions their counterexamples call for |
| C55-C57, C59 | C19, C21, C22, C35 in full under the conditions their counterexamples call for |
| C58 | C23 in full: an inductive description of partial output at every nesting level |
| C60-C62 | C34 and C33 restated to what the code does: comparison after conversion to the operand's type; strings up to the first NUL; low or high bytes kept by narrow widths |
| C63 | C26 in full under the conditions its counterexamples call for |
| C65-C67 | C31, C29, C28 restated to what the code does: lookup of every name, exact acceptance (and that it is `WellFormed` for sensible names), access policy for non-empty names with its meaning on the wire |
| C68 | C41 for self-consistent schemas and storable values: both structs are walked in step (`SamePlace`), at every place the writer's siblings equal what the reader holds when it reaches the field |
| C69 | soundness of writing (C45) and its completeness (C49) put together; the error case adds definedness (C50) |
| C70 | C69 and `read_iff`: both sides are the encodings of valid structs |
| C71 | `minFields`/`maxFields` (`Spec/Sizes.lean`) bound the length of `wire` by recursion on the schema |
| C72 | every execution of the reading tree is charged (`Rd.Ends`, `Spends` in `Lemmas/Cost.lean`): bytes allocated, bytes delivered and calls, composed along `andThen` |
| C73 | invariant over all interleavings (`Session` in `Spec/Session.lean`): the stream contains the encodings of the structs not yet read. `std::fstream`, whose reads and writes share one position, is outside the contract |
| C74 | the cast of an appended list is the cast of the first part followed by the reads of the second (`Lemmas/Append.lean`) |
| C75 | C21 for reads; the instantiation of the writer is refused by the condition on discriminants (`guideOk`) |
| C76 | `static_set` and `equal_ranges` as in C66; C76_good_labels by induction over the derivation that a list is spelled with descriptors |
| C77 | case analysis on types |
| C78 | induction over declarations: spelled lists have consistent sizes (`OkDecls`), and those that can be cast elaborate; then C66 and C76 |
| C79 | C104 |
| C80 | `describe` resolves a pack iff it is a permutation of at most one option of each kind (`resolve_iff`); elaboration by computation |
| C81 | `castsX` in the foreign order is `castsX` in the host's without floats, by induction over declarations; C25 for the bytes |
| C82 | simulation: success of the first cast is success of the second with the same result and state, through every combinator of the reader and of the writer (`Lemmas/Evolve.lean`) |
| C83 | the search splits the sorted list where ends reach the value; exactness by choosing as value the end of an offending range |
| C84 | induction over the renaming: environments agree along it, so the trees of calls are equal; acceptance and access by C66, C67 |
| C85 | C105 |
| C86 | a second reader with `copy` and `drop` events, equal to the first when they are forgotten; counts composed along it, exactly on success |
| C87 | induction over trees: a bounded allocator fails exactly if the peak of C86 is above the bound |
| C88 | the requirements of each functor against the operators C++ types have, by structural induction over types; agreement with the constraints of Model/Schema |
| C89 | IEEE 754 numbers as multiples of 2^-1074; the encoding is monotone in its bits; C07 for reads |
| C90 | lexicographic comparison by induction over lists and types; positional value of bytes |
| C91 | truncation characterised by inequalities |
| C92 | paths through trees with calls (`Act.Path`), structural induction over schemas as for reader = format |
| C93 | the calls replaced by answers are the casts of the schema under these answers, by structural induction |
| C94 | decomposition of a run at the field that does not succeed; which calls a field can make |
| C95 | all branches of the writer emit along one string (`ActE.Line`) |
| C96 | C93 and C45 |
| C97 | a Hoare rule for the questions of a run (`ActE.Polls`), structural induction over the writer |
| C98 | C103 |
| C99-C101, C103-C105 | what can be cast (`Decl.inst`, for the sizes of the descriptors `Decl.casts`: `inst_tidy`) is factored, by induction over declarations, into what every cast asks for, which types fit the cast, which discriminants and which lengths do |
| C106 | finite numbers of a format are those with few digits (`Digits`), by induction over the exponent; no rounding crosses one of them |
| C107 | induction over the derivation that a program can hold the struct; reader = format for parsed parts |
| C108 | structural induction: each field gets a value that agrees once slots are filled, slots stay default, one assignment per other field |
| C109 | depth-first search: the invariant that all visited and finished files have theirs before them; dropping transitive edges keeps reachability of an acyclic graph; `re.sub` line by line |
| C110 | every function of the script commutes with an injective renaming; a sorted list is determined by its members |
| C111 | from C109: a line of the output is a standard include, a mark, or no include |
| C112 | the general theorems (C45, C46, C49, C50, C64) with their decidable conditions evaluated for each schema and platform; the languages from `read_iff` |
| C113 | overload resolution over what a stream type shows (`Model/StreamType`); sizes of calls by induction over the read and write trees |
| C114 | stream objects with their own `operator bool`; runs split at the first failed access (C14) |
| C115 | `Sent` (`Spec/Sent`), a relation between the struct written and the struct sent; induction over the schema against `Emits` |
| C116, C117 | C115 with the exact account of reading (`read_iff`) |
| C118 | `Refused` (`Spec/Refused`), a relation between the bytes and the error; induction over the schema, with `read_iff` for what comes before |
| C119 | `Unsent` (`Spec/Unsent`), a relation between the struct, the error and the bytes written before it; induction over the schema, with C115 for what comes before |
| C120 | `Overflows` (`Spec/Room`) from the schema, the struct and the room; a stream with room for so many bytes takes all of a step or refuses in it, then C115 and C119 field by field |
| C121 | `Model/Containers`: arrays and counters; `Rep`: an array holds a list with value-initialized elements behind it, kept by every operation, so each gives what the list model gives (`Lemmas/Containers`); then Lemmas/Tables and Lemmas/Sort |
| C122 | `HollowFields` (`Spec/Hollow`): a variant without a value somewhere; no `Emits` by structural induction; the scan of `derive_value` stops at the label that is not there |
| C123 | `Means`, `Stored`, `measured` (`Spec/Platform`): validity splits into a part without `Cfg` and the ceilings; `fields_excess`: beyond a ceiling the input is `Refused` with `excessive_length` |
| C124 | `FullNums` (`Spec/Transcode`): `Valid` and `Rewritable` do not depend on the order of the wire; lengths of encodings do not either |
| C125 | `Unseen`, `rigidField`, `Damaged`, `SameBut` (`Spec/Damage`); `valid_replace`: a value nobody looks at can be replaced in a valid struct; `rigidField_short`: a field of settled size is never short of input |
| C126 | `fills`, `Affected`, `Rechecked` (`Spec/Edit`); `valid_pointwise`, `valid_recheck`: a valid struct with some fields changed is valid if those and their dependants are; `settleFields_sameBut` |
| C127 | `Label`, `readUnion`, `writeUnion` (`Model/Labels`): a union with such labels is one union of the model for each direction; `matched_iff`, `ladder_picks`, `valid_deducer` |
| C128 | `AlikeFields` (`Spec/Alike`); equality of the programs by induction over the relation; `switchOn`: a switch over a computed value of any type |
| C129 | `Model/Nav`; entries as decompositions of lines (`Nav.Entry`), `Lists`, `NavPart`; the regular expression against them |
| C130 | `Model/DocCheck`; `Shows`, `Binds`, `Marks`, `DocCheck.Entry`; the loops and regular expressions against them |
| C131 | `Model/LabelSets`; `Spec.Converts` (a multiple of 256^s away); `has_unique_match_values` against it, with C127 |
| C132 | `Spec.Place`: a path through records, arrays, vectors, optionals and unions, with the constraints on the way; induction over it for `wire`, `Valid`, `Refused`, `settle` |
| C133, C134 | equality of trees: the reader depends on the names a field refers to only (`readFields_congr`), the writer on that and on who refers to the field (`SameTo`) |
| C135 | every fixed-size read is one `read_native_impl` and an interpretation of memory (`interp`); with the full size that is the reader of the descriptors, so memory is interpreted as the wire format says |
| C136 | reading: `Valid` is a conjunction over the fields in an environment that names determine (C69's `read_iff`). Writing: the scans of derived_value.hpp over a typed struct end in verdicts that do not depend on the order (`deriveValue_perm`, `verifyScan_perm`), so the program of each field is the same (`SameTo`) |
| C137 | Model/Throw: streams whose calls may throw, and the casts on them (`Rd.tryOn`, `Wr.tryOn`); the library catches nothing, so an exception ends the program at that call. Proved by following the program call by call beside the stream with exceptions off. Not covered: exceptions of allocation or of user predicates, and the state of the struct unwinding leaves |
| C138 | `Valid` cut in three (`valid_part`, `valid_patch`): an environment restricted to the names of the middle part, and one changed only there. Offsets from `wireFields_between`; `C138_fails` patches a length |
| C139 | Model/HandList: the two folds over lists of `HField`. Reading: the induction of `gives_readFields` with one more kind of field (`gives_hand`, from C135). Writing: the induction of `sent_fields` likewise (`sent_hands`) |
| C140 | Spec/Envelope: `byHand` makes the two casts. The cast to the list is the cast to the header followed by the read of the union (`structCast_append`, `runOn_append`), whose chosen alternative reads the record with fresh defaults, as a cast to it does |
| C141 | Spec/Pieces: `Drains`, `Fed`. Successes, other errors and undefined behaviour stay as they are when bytes are put behind (C03, C05), exhaustion goes on where it waited; induction over the pieces. Bounds from C125, prefixes from C04 |
| C142 | by cases on the descriptor (`Spelled`), then at every level through `everywhere_spelled` |
| C143 | the list split at the container (`runOn_append`), induction over the number of records; validity and writing through the exact reading theorem |
| C144 | `strlen` as `takeWhile` (`cstr?_eq`), induction over the operands; the one-field casts by evaluation |
| C145 | casts as trees equal those of the list with bytes for storage (reading, host order); in foreign order each step of the valid write (`complete_fields` on every suffix) against the step that writes nothing; lengths |
| C146 | reading: equal trees, the numbers of the list known to be values of their types at every step; writing: the valid structs are the same, and filling in the one after the other is filling in the one (C69) |
| C147 | reading: field by field on any stream with an idle request, the two lists by name agreeing off the picked optionals; writing: the two lists are the same to every field (`SameTo`), and whatever is written has no optional engaged against its predicate |
| C148 | `Model/Guarded`, beside the model of the descriptors; reading: equal trees; writing: step by step on any stream |
| C149 | equal trees of calls, reading and writing; decoding and encoding by induction on the element type |
| C150 | the same runs on the given streams, field by field; C84, C147 and C149 are the instances |
| C151 | `Model/Spelled`, the union of `Model/Hand`, `Model/Guarded` and `Model/Vacant` at every depth; mutual inductions like those of C03 and C115 |
| C152 | the same runs on any stream (`InStream.len` is needed: the bytes delivered are as many as asked for); the lists by C150, whose replacements include these types |
| C153 | programs equal by mutual induction, reading with arrays of the descriptors, writing with vectors; round trip from C45's soundness and C03, along translations of validity between the two lists |
| C154 | reading: induction over the fields before the count and between, with what the constraint leaves of the count as a postcondition; writing: the two contexts say the same to every other field (`SameTo`), the count by computing both ways |
| C155 | what is within the ceiling begins with an allocation, so its list of allocations is longer; the error inverted through optional, union and the records of a vector |
| C156 | a field that has not been read holds its default: the two readers are equal by induction over the schema; the lemmas of C115 and C119 hold of every `Acceptable` schema |
| C157 | C115 (the struct sent) and `read_iff`; encodings of typed structs are the same under a looser schema (`Lemmas/Versions.lean`) |
| C158 | the program equalities of C145, C148 and C153 with C115 (the struct sent) and `read_iff`; for empty elements in foreign order the fields one by one (`sent_vacants`); for records the last field of what is sent |
| C159 | induction over `Spec.Place` for `Sent` and `Unsent` (`place_sent`): the path through what is sent is a place of its own; then C115, C119 and `read_iff` |
| C160 | `Spec/Again`: `Near`, `Again`, `Resent`; a field that is not in `Again` sees the same environment, the same producers and the same active containers (`sentField_again`) |
| C161 | C146's theorems on writing, under the condition they need |
| C162 | `Model/FloatLen`; each list is compared with one whose lengths are computed (`AsComputed`): reading by induction over the fields, writing by `SameTo` between the struct and the struct with the lengths filled in (`Filled`); then C45 |
| C163 | `Model/FloatTag`; the reader is that of a list with predicates in place of the labels (`asLadder`), for writing the struct is compared with the one with the discriminants filled in (`TagFilled`), by `SameTo`; then C45 |
| C164 | `Model/FloatOpt`; compared with the list with computed lengths as in C162, but with the struct as it is: nothing is filled in, so the names are the same and `verify_conditional_len` is all that differs (`OptReady`); then C45 |
| C165 | `Model/Inst`, factored as for C99-C105, with what is asked of sizes as a property of every field, optional and alternative (`sizes`); where one direction holds, what the other asks for is compared at each of them (`sizes_congr`) |
| C166 | `Model/Sized`: the readers and writers over fields with such sizes; equal, program by program, to those of `Model/Counted` for the list without them (`asFields`, for a struct), by structural induction. The rest is C153 |
| C167 | the equalities of programs of C162-C164 and C166, with C115 for what is sent and C07/C08 (`read_iff`) for what is read |
| C102 | as C66; the constraint `has_unique_field_ids` as the code has it |
| C64 | C27 with the hazards of a schema listed: nothing else goes wrong, on any stream |

## Findings

Recorded while reading; each gets a witness theorem.

1. Narrow fields in big-endian wire order (e.g. `basic_field<"x", u32, 2_B>`):
   the bytes land in the high half of the object; values that fit are lost on
   write (C33, and C15 for derived lengths).
2. "Verified" (conditional) lengths are not checked against the declared width,
   although `docs/errors.md`/`docs/writing.md` say so (C18).
3. Callables evaluated while writing see the *stored* value of derived and
   frozen siblings, the reader sees the wire value (C41). Both directions can
   succeed and disagree: `C41_fails_derived` writes an optional the reader takes
   for absent.
4. A container larger than its own `max_bytes` is written and cannot be read
   back (C01).
5. "Nothing of field k" on a failed write is false for fields containing
   records (C23).
6. `eq{v}` with an operand narrower than the field truncates the field value
   before comparing (`magic_number<"m", u64, 8_B, 0xdead>` accepts
   `0x10000dead`); an operand that does not fit the field is written truncated
   and then rejected on read (C19, C34).
7. `magic_number` accepts a size larger than its type: out-of-bounds access
   (C27).
8. `fixed_string ==` runs `strlen` over wire bytes that need not contain a
   terminator: out-of-bounds read on hostile input for `magic_string` (C27).
   It also ignores everything after the first NUL (C02, C34).
9. A `bool` field accepts any byte (C27).
10. `len_from_field`/`parse_if`/predicates naming the field itself pass the
    dependency check (C29).
11. The field table maps the empty name although no field declares it; a field that
    does declare it is found at position 0 with type 0 (C31).
12. `match_case` labels distinct as `size_t` may be equal under the comparison
    the reader uses (`-1` and `0xFFFFFFFF` on a `u32`) (C16).
13. Negative `match_case` labels on fields narrower than `size_t` can be read
    but never written (C18).
14. With a ceiling of `SIZE_MAX`, a length beyond `PTRDIFF_MAX` bytes makes
    `resize` throw out of the cast (C27).
15. The documentation says an `as_vec_of_records` alternative cannot be written;
    by the code it can (its length is conditional, hence assignable and
    verified).
16. `maybe<vec_field<.., max_bytes<N>>, ..>` does not compile: the dependency
    extraction for `maybe_field` only matches the default bound
    (`field_list_metadata.hpp` 78-86). The model allows the schema; theorems
    about it say nothing about code that exists.
17. A slot that is both a length and a discriminant can be written, but reading
    does not compile: `type_impl.hpp` 34 reads the discriminant through
    `operator[]`, which refuses length targets.
18. On a 32-bit platform, labels of a 64-bit discriminant pass through `size_t`:
    they are truncated, negative ones come out positive, and two that differ by
    2^32 are taken for equal (C16, C17).
19. `magic_string` constants with an embedded NUL, `eq` operands narrower than
    their field, and negative labels on narrow discriminants make a parsed struct
    that cannot be written back to the same bytes (C02).
20. A `fixed_string` alternative with `neq` compares a stored value that need not
    be terminated: out-of-bounds read while writing (C50).
21. A constant (`eq`) that is also a derived length fails the write when the
    container has another size; one that is also a conditional length does so
    with `found_contradicting_length` at the constant (C19, C22).
22. A union inside an alternative reports `type_deduction_failure` under the
    outer union's name although an alternative of the outer one matched (C21).
23. A ladder, computed switch or computed length over a derived or constant
    sibling is evaluated with the stored value: a write can succeed with an
    alternative the reader does not select (C21), or verify 2 x 1 cells and emit
    1 x 4 in the header (C35).
24. On a 32-bit platform a 64-bit conditional length is compared modulo 2^32
    (C22).
25. A conditional length or computed container that violates its own constraint is
    reported as `validation_failure`, not as `found_contradicting_length` (C22,
    C35).
26. After a failed access inside a vector, the element-wise path of compile-time
    streams has consumed or emitted the elements before it, the bulk path nothing
    of the vector (on streams that take an access as a whole or not at all) (C26).
27. `fl[""_f]` compiles although no field has the empty name, and refers to the field
    whose type has id 0; that can be a derived length, which is then assignable (C28).
28. A record all of whose fields may be absent takes no bytes, so a vector of them is
    as long as its count says whatever is in the stream: a four-byte input makes the
    library allocate up to the ceiling and the cast succeeds (C72).
29. A union can switch on an optional field when reading (an empty optional matches no
    label), but a list with such a union cannot be written (C75).
30. `variance` tells labels apart as `std::size_t`, the reader compares them in the
    discriminant's common type with each label: `match_case<-1>` and
    `match_case<0xFFFFFFFF>` over a `u32` are accepted on 64 bit, and the second is
    never selected; labels 0 and 2^32 over a `u64` are refused on 32 bit (C76).
31. Descriptors admit buffers the casts have no specialization for (arrays of
    `fixed_string`, of C arrays in `std::array`); `struct_field_list` refuses them, but
    not inside `maybe`, whose base is not checked: the error appears in `read_field`
    (C77, C79). Likewise `std::vector<bool>`, optional C arrays and lengths named after
    fields that are not integers pass `struct_field_list` and fail when cast (C79; but
    see 40).
32. Ceilings are in bytes of memory of the elements, not of input. Appending a case to a
    union in the element of a vector of records enlarges `sizeof` of the element, so the
    same `max_bytes` (and the default ceiling) refuses lists that were read before and do
    not use the case (C82).
33. The range constraints, which cannot be constructed, would be wrong if they could:
    overlapping open ranges refuse values (5 for (1,5), (3,9)), and a range within another
    violates the precondition of `std::lower_bound` (C83).
34. `struct_cast_impl` returns `R(field_list)`, a copy, and the reader of a nested list
    stores `*res`, another copy; an optional stores a copy of its base. What lies `d`
    records deep is copied `2 d + 1` times, and every successful read has twice its result
    in memory before it returns. `std::move` at the three places would avoid all of it (C86).
35. A read that fits in memory once but not twice consumes all of its input and then ends
    in `std::bad_alloc`, at the copy it returns (C87).
36. `gte` over a `fixed_string`, which docs/constraints.md says there is, does not compile:
    there is no `<`. `gte` over `float` does not either, although `lt`, `gt` and `lte` do.
    `eq`, which is said to refuse floating-point types outright, takes arrays of them; a
    field frozen to an array with a NaN is written but never read (C88, C90).
37. `eq{5}`, `gte{0}` and the like on a floating-point field compile and compare the value
    converted to `int`. Input with a NaN or a number out of range makes the conversion
    undefined; 5.75 passes `eq{5}` and is written back as 5 (C91).
38. The writer asks the predicate of an optional container once when it checks the length
    field and again when it comes to the optional. A predicate that answers no and then
    yes makes a write succeed whose length field contradicts the container; with any
    function as predicate it fails (C95). The reader asks everything once (C92).
39. Nothing but `basic_field` keeps lengths and discriminants integers: with
    `field<"n", float, 4_B>` spelled by hand both casts compile in the host's byte order
    (C98). The length is then converted with `static_cast` rules; a NaN, a negative or a
    huge number in the input makes that conversion undefined.
40. A `std::vector<bool>` can be neither read nor written in the host's byte order to a
    run-time stream, but it can be written in the foreign order, and to a stream for
    constant evaluation: there the elements are passed by value (C79, C85, C99-C101).
41. A C array of C arrays cannot be read from a stream for constant evaluation: the
    elements of the `std::array` it is read into are assigned one by one, and arrays are
    not assignable (C99, C100). All other casts of it compile.
42. `struct_field_list<>` is refused, although nothing says a list must have a field: the
    check that names are unique builds a `std::array{}` without an element type (C66, C102).
43. The field a length is taken from is looked at by a write only where a field of fixed
    size with that name is written: for a container inside an optional or a union it may
    be a vector, a record, an optional or a union, in lists that can be written and not be
    read (C79, C85, C98, C99, C101; exactly C103-C105).
44. A constraint with a `float` operand on a 32-bit integer, or a `double` operand on a
    64-bit one, compares a rounded number: `gt{16777216.0f}` refuses 16777217, `lte` and
    `any_of` accept it (C106). `lt` and `gt` err on the side of refusing only.
45. A message with a field that depends, through a callable, on a constant or a derived
    field cannot be written by a program that has not parsed one: `operator[]` does not
    let it store the value that the callable looks at, and the writer does not store it
    either. With `magic_number<"ver", ..., 1>` and an optional present if `ver == 1` the
    optional can never be written from a struct that was not parsed (C108).
46. `scripts/amalgam.py` removes an include if another include brings the file in. Where
    headers include each other in a circle (legal with guards), each is brought in by the
    other: both includes are removed and neither header is written, without a message
    (`C109_fails_cycle`).
47. It follows the includes of files with the extensions `.h`, `.hpp`, `.c` and `.cpp`
    under the directory only. A file of another extension (`.ipp`) is written, its
    includes are taken out, and what they name is lost (`C109_fails_extension`).
48. `#include "x.hpp" // why` is neither followed nor taken out: the header that is written
    needs the directory it was made from (`C111_fails_comment`).
49. Headers can come in an order different from the one a compiler meets them in
    (`C109_order_differs`): a header that relies on one its includer includes before it,
    without including it, compiles from the directory and not from the single header.
    None of 46-49 applies to the headers of /repo as they are (`Conformance/Amalgam`).
50. The entry file is compared with the absolute paths of the files found, as it was given:
    a relative path is reported as not in the project. (Read, not proved: `resolve` and
    `walked` are parameters of the model.)
51. `pixel_count` of docs/schema/computed-values.md multiplies two `u16`. They are promoted
    to `int`, so the four bytes FF FF FF FF of a stranger make the documented example
    overflow, which is undefined, before the library sees the result
    (`C112_fails_overflow`).
52. The schema of test/shipped_header/roundtrip.cpp starts with a `magic_string`: any four
    bytes without a zero make reading it undefined (`C112_fails_shipped`, an instance of
    C27).
53. A stream type with both forms of `read` (raw pointer and `std::array`) derived from
    `constexpr_stream`, as one would write to use a stream at run time and in constant
    evaluation, passes `input_stream_like`, and no cast compiles: the two overloads of
    `read_native_impl` are ambiguous (`C113_fails_both`).
54. The concepts test `!obj`; the library tests `!obj.read(..)`. A `read` that returns a
    proxy converting to `std::istream&` without a negation passes and fails inside
    (`C113_fails_unseen`).
55. docs/streams.md says that the library tests the stream after every access. It tests what
    `read` or `write` returned. For a type whose `read` returns another stream, which
    `std_read_trait` accepts, the type's own `operator bool` is never called: a wrapper that
    goes bad is read on, and the cast succeeds with zeros (`C114_fails_wrapper`).
56. `static_optional == static_nullopt_t{}` is true when the optional has a value
    (static_optional.hpp 39-43), the opposite of `std::optional`. Two `static_optional`s
    compare equal whenever both hold a value, whichever: a declared `operator==` keeps the
    defaulted `operator<=>` from bringing one, and both sides convert to `bool`
    (`C121_fails_comparisons`). The library uses neither comparison.
57. A variant can lose its value (an assignment to it throws). `derive_value` asks
    `value_at(producer.value.index())` without looking: the index is `variant_npos`, and the
    array of labels is read far behind its end (derived_value.hpp 65-68, 280-281;
    `C122_switch_undefined`). Ladders and computed switches report an error instead.
58. Lengths are converted to `std::size_t` without a check (field_size_deduce.hpp 17-38). On
    a platform where it has four bytes, a length of eight bytes is taken modulo 2^32: 2^32 + 5
    is read as 5 elements, the rest of the input as what follows, without an error
    (`C123_fails_wide`). And the ceiling of a vector of records counts `sizeof` of the record
    in memory, which differs between platforms, so that one accepts a file another refuses
    with `excessive_length`, with the same declared `max_bytes` (`C123_fails_sizeof`).

59. A label of a union over a field may be a floating-point number that is not whole, say
    `match_case<1.5, T>`. The writer stores it as 1 (`static_cast<std::size_t>`,
    derived_value.hpp 66) and the reader compares 1 with 1.5 (switch_impl.hpp 17): every
    struct with that alternative is written successfully and refused when read back
    (`C127_fails_half`). With a 64-bit field and a label of type `double` the comparison
    rounds the field, so that a value next to the label selects its alternative, and another
    alternative written is read back as it (`C127_fails_rounding`).

60. `scripts/check_nav.py` counts entries of the navigation that are commented out: a page
    that cannot be reached passes (`C129_fails_comment`). An entry without a title, `- index.md`,
    which MkDocs accepts, does not count: its page is reported (`C129_fails_untitled`).

61. `scripts/check_doc_examples.py`: if `// docs-end` comes before `// docs-begin`, the region
    is empty, and a bound block that is empty agrees with it (`C130_fails_swapped`). Complete
    programs in an indented block, in a block fenced by tildes, or below a line that begins
    with code in three backquotes are not seen (`C130_fails_unseen`). A difference in a line
    `<end of block>` is reported as one of trailing white space (`C130_fails_words`).

62. `has_unique_match_values` compares labels after `static_cast<std::size_t>`. In a switch
    over a computed `double`, different labels such as 1.25 and 1.5 are therefore refused as
    equal (`C131_fails_fraction`), and -1.0, infinities and NaNs do not compile, while -1 does
    (`C131_fails_negative`). Where comparing rounds, labels it takes match the same value
    (`C131_fails_rounding`).

63. `write_foreign_buffer` does not look at the byte count it is given for an array
    (write_impl.hpp 65-85). For `field<"a", std::array<u8, 2>, 1_B, ...>`, which is read from one
    byte, a host of the other byte order writes two (`C135_fails_foreign`). Nothing compares the
    byte count of a field spelled by hand with the size of its type.

64. Arrays and vectors of `std::array<T, 0>` are accepted, and `sizeof` of the element is
    not zero. `read_native` and `write_native` move that many bytes for each element, but
    `write_foreign_buffer` (write_impl.hpp 65-85) descends to the scalars, of which there are
    none, and writes nothing, while `read_foreign_buffer` still reads them: what foreign order
    writes cannot be read back (C145).
65. A field that is both a constant (`eq`) and read by a computed length is written as the
    constant but handed to the computation as the user left it: `n` with `eq{3}` and a vector
    of `len_from_fields` of `n` writes `3` and two elements if the struct says `2`, which cannot
    be read back; with `len_from_field` the same struct is refused (C146_fails_constant).
66. An optional container engaged while its predicate is false is not counted when its
    length field is checked, the same container as the held alternative of a union is
    (derived_value.hpp 186-199): the one is refused with `validation_failure` at the optional,
    the other with `found_contradicting_length` at the length, before the first byte
    (C147_fails_error).
67. The comment in `read_variant_impl` (field_reader.hpp 244-248) says `maybe_field` checks the
    constraint of its base as a union does that of its alternative. The writer does
    (field_writer.hpp 204), `read_field<optional_field_like>` (195-217) does not. The alias
    `maybe` admits no base with a constraint, `maybe_field` spelled by hand does: it reads what
    it refuses to write (C148_fails_read).
68. An array of records spelled by hand with `len_from_field` is accepted
   (`is_array_of_record_field` takes any size), and reading ignores the length, while writing derives it:
   input that says five records are in an array of two is read as two records and the number five, without an
   error, and written back with the number two; in an optional it is refused when written (C153). A
   `len_from_fields` on an array is not looked at by either. One more `requires` on the size in
   field_traits.hpp 60-63 would reject them, as is done for arrays of anything else.

69. C11 and C36 were first reported as proved on a reading that left cases out. As stated C11 is
    false of vectors of records: two records within the ceiling of the vector can fail with
    `excessive_length` by the vector's name because a container in one of them is over its own
    (`C11_fails_records`). C36 is false of a length wider than `size_t`: on a 32-bit platform the
    64-bit length `1 - 2^32` is taken for one element (`C36_fails_wider`). Both are partial now;
    C155 says exactly when `excessive_length` is reported, for every container and width.

70. Where a property says "every schema", its theorems ask for `WellFormed`: dependencies on
    strictly earlier fields. The library accepts more, a callable that names its own field (finding
    10). C156 closes the gap: which schemas are accepted then, what is read (by equality with the
    reader of a well-formed schema) and what is written and refused. What is read back from a write
    differs: an optional whose predicate looks at the optional itself can be written and not read
    back, or read and not written. A callable that names the empty name (accepted too, C29) is not
    covered.

71. C74 and C82 say without condition that one version of a program reads what another wrote.
    That needs the schema written with to be self-consistent: with a length narrower than its type
    in big endian neither version reads what was written (C74_fails_narrow, C82_fails_narrow). Both
    are partial; C157 has the exact condition, that what was sent is valid for the reader's schema.

72. C127, C143, C145, C148 and C153 say of all lists what holds of self-consistent or rewritable ones.
    With a number narrower than its type in big endian none of them holds (C127_fails_narrow,
    C143_fails_narrow, C145_fails_narrow, C148_fails_narrow, C153_fails_narrow). They are partial;
    C158 has the exact conditions for all lists.

73. C126, C132 and C146 speak of all new values. A number too wide for its field is no value of it, yet
    is written, cut (C126_fails_wide); where a length is in a type wider than `std::size_t` the write of
    a struct that was read changes bytes outside the part replaced (C132_fails_wide); and a length too
    wide for its field is refused where it is filled in, and cut where it is asked for
    (C146_fails_wide). They are partial; C159, C160 and C161 have the exact conditions.

74. A length that is a `float` declared with fewer bytes than it has is checked against that width as an
    integer (`fits_declared_width`), and then its first bytes are written: on a little-endian host three
    elements are written after the two low bytes of `3.0f`, which are zero, and none is read back
    (C162_fails_narrow). A NaN or a number out of range on the wire makes a read undefined
    (C162_undefined); a fraction is dropped without an error.

75. Labels of a union are compared as `std::size_t` when a schema is compiled (`has_unique_match_values`),
    and as numbers of the discriminant's type when it is read. With a `float` for discriminant, 2^24 + 1
    and 2^24 are two labels for the one and the same number for the other: what is written for the second
    alternative is read back as the first (C163_fails_rounded). Negative labels are worse: they are
    converted to `std::size_t` first, so the least 64-bit number is written as 2^63 and not read back
    (C163_fails_sign), and the check whether -1 fits converts 2^64 to `std::size_t`, which is
    undefined (C163_fails_negative).

76. The number that is the length of an optional container is converted to `std::size_t` whenever it is
    written, also if the optional is absent (`verify_then_write` calls `verify_conditional_len` with the
    converted value first). For a `float` this is undefined unless it is a length: a NaN before an
    absent optional is read without a look at it, and writing what was read is undefined
    (C164_fails_again).

77. The size of a record, an array of records or a vector of records that is spelled by hand is not
    checked when the list is declared, and the two casts disagree about it: a vector of records
    without a length can be written and not read (C105_fails_vector); a record that is given a length
    can be read, the length being ignored, and not written, as the writer asks for the `size()` of the
    record (C105_fails_record); an array of records can be read whose length is that of a string
    (C103_fails_array).

78. A vector of records without a length is written with nothing to tell where it ends: two structs
    are written as the same bytes (C166_fails_bounds). The list compiles for writing, and its reader
    does not, so that this is not noticed by the type that is written.

Disclosure: the task is to read /repo as text and not to run it. `scripts/amalgam.py` was
run once, by mistake, on three files in a scratch directory outside /repo and /verif, when
the expected text of the example `threeOut` had been written down wrongly. /repo was not
changed. The text of the example is what the model evaluates to; no theorem depends on that
run, and it is not counted as a check of the model.
