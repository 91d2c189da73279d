{"id": "C01", "title": "Write-then-read round trip", "statement": "If stream_cast_le/be of a struct succeeds, then struct_cast in the same byte order on the emitted bytes (with any bytes following) succeeds, leaves exactly the following bytes, and returns the struct that was written, with every library-filled slot (derived length, derived discriminant, eq-frozen value) holding the value that went on the wire.", "quantifier": "every accepted schema (nested records, arrays, vectors, optionals, unions), every well-typed struct value, both byte orders, both hosts, every continuation of the stream", "why_tests_cant": "tests fix a handful of schemas and values; the claim ranges over all nestings of descriptors and all values", "anchors": ["include/cast/stream_cast_impl.hpp: stream_cast_impl", "include/cast/struct_cast_impl.hpp: struct_cast_impl", "include/field_write/field_writer.hpp: write_field", "include/field_read/field_reader.hpp: read_field", "docs/writing.md"]}
{"id": "C02", "title": "Read-then-write reproduces the bytes", "statement": "If struct_cast succeeds on a stream, stream_cast of the unmodified result in the same byte order succeeds and emits exactly the bytes the read consumed.", "quantifier": "every accepted schema, every input byte string that parses", "why_tests_cant": "needs every input that parses, including ones no test author thought of", "anchors": ["include/cast/struct_cast_impl.hpp: struct_cast_impl", "include/cast/stream_cast_impl.hpp: stream_cast_impl", "include/field_write/derived_value.hpp: derive_value, verify_conditional_len"]}
{"id": "C03", "title": "A read consumes exactly the encoding", "statement": "A successful struct_cast consumes exactly one prefix of the input; the value it returns depends on that prefix only, and everything after it is left unread.", "quantifier": "every schema, every input, every continuation after the consumed prefix", "why_tests_cant": "quantifies over all suffixes of all inputs", "anchors": ["include/cast/struct_cast_impl.hpp: struct_cast_impl", "include/field_read/read_impl.hpp: read_native, read_impl", "docs/reading.md", "docs/streams.md"]}
{"id": "C04", "title": "Truncated input is always reported as buffer_exhaustion", "statement": "If struct_cast succeeds on some input consuming n bytes, then on every proper prefix of those n bytes it fails, and the reason is buffer_exhaustion: never a wrong success, never another reason.", "quantifier": "every schema, every parsable input, every truncation point", "why_tests_cant": "the truncation point ranges over every byte of every valid input", "anchors": ["include/cast/struct_cast_impl.hpp: struct_cast_impl", "include/field_read/read_impl.hpp: read_native_impl", "docs/errors.md"]}
{"id": "C05", "title": "Errors other than exhaustion are final", "statement": "If struct_cast fails with a reason other than buffer_exhaustion, then it fails with the same reason at the same field however much more data follows the bytes already present.", "quantifier": "every schema, every failing input, every extension of it", "why_tests_cant": "ranges over every extension of every input", "anchors": ["include/cast/struct_cast_impl.hpp: struct_cast_impl", "include/error/cast_error.hpp: error_reason"]}
{"id": "C06", "title": "The result does not depend on the stream implementation", "statement": "Two streams that satisfy the documented read contract and hold the same bytes give the same struct or the same error, however they behave internally (bulk, byte-at-a-time, consuming or not on a failed read).", "quantifier": "every pair of contract-abiding stream types, every schema, every content", "why_tests_cant": "the stream type is user supplied; tests exercise three", "anchors": ["include/stream/stream_traits.hpp: readable, writeable, identified_as_constexpr_stream", "docs/streams.md", "include/field_read/read_impl.hpp: read_native_impl", "test/utils/constexpr_memstream.hpp: memstream"]}
{"id": "C07", "title": "Every constraint holds in a parsed struct", "statement": "If struct_cast returns a struct, every field in it satisfies its declared constraint, at every nesting level: top-level fields, fields of nested records, elements of arrays and vectors of records, the selected union alternative, and the union itself.", "quantifier": "every schema, every input that parses, every position inside the result", "why_tests_cant": "positions inside arbitrarily nested results cannot be enumerated", "anchors": ["include/cast/struct_cast_impl.hpp: struct_cast_impl", "include/field_read/field_reader.hpp: read_variant_impl", "include/field_validation/field_value_constraints.hpp", "docs/constraints.md"]}
{"id": "C08", "title": "A parsed struct is shaped by its own fields", "statement": "In a struct returned by struct_cast every container has exactly as many elements as its length field (or length computation) says, an optional is engaged exactly when its predicate holds on the parsed siblings, and a variant holds exactly the alternative its discriminant, computation or ladder selects.", "quantifier": "every schema, every input that parses", "why_tests_cant": "relates every dependent field to the fields it depends on for all inputs", "anchors": ["include/field_read/field_reader.hpp: read_field", "include/field_size/field_size_deduce.hpp", "include/field_compute/computation_from_fields_impl.hpp: compute_impl", "include/type_deduction/type/type_impl.hpp: deduce_type"]}
{"id": "C09", "title": "The error names the first field that fails", "statement": "Fields are processed in declaration order and processing stops at the first failure: if struct_cast reports failed_at = f then every field before f was read and satisfied its constraint, and no byte beyond the failing operation of f was requested; failed_at is always the id of a field of the list passed to the cast.", "quantifier": "every schema, every failing input", "why_tests_cant": "ranges over all failing inputs and all failure positions", "anchors": ["include/cast/struct_cast_impl.hpp: struct_cast_impl", "include/error/cast_error.hpp: operator|, cast_error", "docs/errors.md"]}
{"id": "C10", "title": "Nested failures surface the reason and the outermost field", "statement": "A failure inside a nested record, an element of an array or vector of records, an optional or a union alternative is reported with the inner reason unchanged and with failed_at naming the outermost enclosing field, at every nesting depth, for reads and for writes.", "quantifier": "every nesting depth and every failing leaf", "why_tests_cant": "nesting depth is unbounded", "anchors": ["include/field_read/field_reader.hpp: read_field<struct_field_like>", "include/field_write/field_writer.hpp: write_nested", "docs/errors.md"]}
{"id": "C11", "title": "excessive_length fires exactly when the byte count exceeds the ceiling", "statement": "Reading a container whose length is n elements of size s under ceiling c fails with excessive_length if and only if the mathematical product n*s exceeds c; the check cannot be defeated by wrap-around, and when it fires nothing has been read for that field and no storage was requested.", "quantifier": "every n representable in size_t, every element size, every ceiling", "why_tests_cant": "2^64 lengths times all ceilings", "anchors": ["include/field_read/read_impl.hpp: checked_byte_count, read_native", "include/field_read/field_reader.hpp: read_field<vector_of_record_field_like>", "docs/schema/size-axis.md"]}
{"id": "C12", "title": "Wire-driven allocation is bounded", "statement": "On any input whatsoever, every container the reader resizes, at any nesting level, whether the read later succeeds or fails, is resized to at most ceiling bytes, where the ceiling is the declared max_bytes or the library default.", "quantifier": "every schema, every input (including hostile ones), every resize performed during the read", "why_tests_cant": "hostile inputs are unbounded in number", "anchors": ["include/field_read/read_impl.hpp: read_native", "include/field_read/field_reader.hpp: read_field<vector_of_record_field_like>", "include/field_size/field_size.hpp: bound_value, default_max_bytes"]}
{"id": "C13", "title": "A declared max_bytes is independent of the global default", "statement": "If every variable-size field of a schema declares max_bytes then struct_cast behaves identically for every value of S2S_DEFAULT_MAX_BYTES; and raising the default never turns a success into a failure.", "quantifier": "every schema with declared bounds, every input, every pair of defaults", "why_tests_cant": "the macro is a build-time constant: one test binary sees one value", "anchors": ["include/field_size/field_size.hpp: bound_value, bound_in_bytes", "docs/schema/size-axis.md"]}
{"id": "C14", "title": "Which reasons each direction can report", "statement": "struct_cast never reports found_contradicting_length; stream_cast never reports excessive_length, and reports buffer_exhaustion only if the stream refused a write; type_deduction_failure arises only from a union.", "quantifier": "every schema, every input, every struct value, every stream", "why_tests_cant": "a universally quantified absence", "anchors": ["include/error/cast_error.hpp: error_reason", "include/field_read/field_reader.hpp", "include/field_write/field_writer.hpp", "include/field_write/derived_value.hpp", "docs/errors.md"]}
{"id": "C15", "title": "A derived length is the container's size, whatever is stored", "statement": "When stream_cast succeeds, the field that a top-level len_from_field container names is emitted as that container's element count; the value stored in the length slot has no influence on the result or on the bytes.", "quantifier": "every schema, every struct, every stored slot value", "why_tests_cant": "ranges over all stored values and containers", "anchors": ["include/field_write/derived_value.hpp: derive_value, is_derived_target", "include/field_write/field_writer.hpp: write_field<fixed_sized_field_like>", "docs/writing.md"]}
{"id": "C16", "title": "A derived discriminant selects the held alternative", "statement": "When stream_cast succeeds, the field a type_switch union matches on is emitted as the match value of the alternative the variant holds, whatever is stored, and a reader of those bytes selects that same alternative.", "quantifier": "every switch union, every held alternative, every stored slot value", "why_tests_cant": "ranges over all schemas with unions", "anchors": ["include/field_write/derived_value.hpp: discriminant_obligation", "include/type_deduction/switch/switch_impl.hpp", "include/api/field_descriptors.hpp: variance (has_unique_match_values)"]}
{"id": "C17", "title": "Contradicting producers are rejected before the shared slot is written", "statement": "If two fields imply different values for one derived slot, stream_cast fails with found_contradicting_length at that slot (or an error at an earlier field) and no byte of the slot or anything after it is emitted; conversely, if all producers agree this error is not raised for the slot.", "quantifier": "every schema with shared length/discriminant slots, every struct value", "why_tests_cant": "ranges over all combinations of producers", "anchors": ["include/field_write/derived_value.hpp: derive_value", "docs/writing.md"]}
{"id": "C18", "title": "Derived values are never truncated", "statement": "A derived length or discriminant that does not fit the declared width and type of its slot fails with validation_failure; when the write of the slot succeeds the value emitted is numerically the derived one. The documentation states the same for lengths that are verified rather than derived.", "quantifier": "every slot type, declared width and implied value", "why_tests_cant": "2^64 values times all slot types", "anchors": ["include/field_write/derived_value.hpp: derive_value::fits_declared_width, verify_conditional_len", "docs/writing.md", "docs/errors.md"]}
{"id": "C19", "title": "Frozen fields always emit their constant", "statement": "A fixed-size field constrained with eq is emitted as the constraint's value whatever is stored in it, it can never be the cause of a failed write on a healthy stream, and the emitted bytes satisfy the constraint when read back.", "quantifier": "every eq-constrained fixed-size field, every stored value", "why_tests_cant": "ranges over all constants, types and widths", "anchors": ["include/field/field_traits.hpp: frozen_field_like, frozen_value_of", "include/field_write/derived_value.hpp: is_frozen_target", "include/field_write/field_writer.hpp: write_field<fixed_sized_field_like>"]}
{"id": "C20", "title": "Optional presence agrees with its predicate on both sides", "statement": "stream_cast succeeds only if each optional is engaged exactly when its predicate holds; a mismatch fails with validation_failure at that field with nothing of it emitted; an absent optional contributes no bytes and reading it consumes none.", "quantifier": "every predicate, every struct value, every input", "why_tests_cant": "predicates are arbitrary callables", "anchors": ["include/field_write/field_writer.hpp: write_field<optional_field_like>", "include/field_read/field_reader.hpp: read_field<optional_field_like>", "docs/schema/optional-and-variant.md"]}
{"id": "C21", "title": "Union selection is first-match and checked on write", "statement": "Reading a union selects the first case or branch that matches and fails with type_deduction_failure exactly when none does; writing a union with a computed switch or a ladder succeeds only if the held alternative is the one the reader would select, failing otherwise with validation_failure (or type_deduction_failure when nothing matches) before emitting anything of the union.", "quantifier": "every list of cases or branches, every sibling values", "why_tests_cant": "ladders and switches are arbitrary lists over arbitrary predicates", "anchors": ["include/type_deduction/switch/switch_impl.hpp: evaluate_switch", "include/type_deduction/if_else_ladder/ladder_impl.hpp: evaluate_ladder", "include/field_write/field_writer.hpp: write_field<union_field_like>"]}
{"id": "C22", "title": "Conditional lengths are verified exactly when active", "statement": "A length named only from inside an optional or a union alternative is emitted as stored; if the optional is engaged and its predicate holds (or that alternative is held) and its container has a different size, the write fails with found_contradicting_length at the length field; otherwise it never fails for that reason.", "quantifier": "every schema with conditional producers, every struct value", "why_tests_cant": "combinations of active and inactive producers", "anchors": ["include/field_write/derived_value.hpp: conditional_len_obligation, union_len_obligation, verify_conditional_len"]}
{"id": "C23", "title": "A failed write leaves a clean field-boundary prefix", "statement": "If stream_cast fails at field k on a stream that refuses nothing, the bytes on the stream are exactly the encodings of the fields before k and nothing of field k.", "quantifier": "every schema, every struct value, every failing field", "why_tests_cant": "ranges over all failing structs", "anchors": ["include/cast/stream_cast_impl.hpp: stream_cast_impl", "include/field_write/field_writer.hpp: write_field", "docs/writing.md"]}
{"id": "C24", "title": "Whatever reaches the stream is a prefix of the encoding", "statement": "On a stream that stops accepting at any byte, stream_cast fails with buffer_exhaustion naming the field being written and what the stream accepted is a prefix of what a healthy stream would have received; a stream with enough room always receives the whole encoding.", "quantifier": "every schema, every struct, every capacity, every partial-write behaviour", "why_tests_cant": "the crash point ranges over every byte of every encoding", "anchors": ["include/cast/stream_cast_impl.hpp: stream_cast_impl", "include/field_write/write_impl.hpp: write_native_impl, write_foreign_buffer", "docs/streams.md"]}
{"id": "C25", "title": "Byte order on the wire is positional and host independent", "statement": "For a full-width integer, stream_cast_le emits least significant byte first and stream_cast_be most significant byte first, on little- and big-endian hosts alike; reading is the inverse; for multi-byte elements of arrays and vectors the order applies per element and never across elements; strings and byte buffers are identical in both orders.", "quantifier": "every integer type, every value, both hosts", "why_tests_cant": "CI runs on one endianness; all values of all widths", "anchors": ["include/stream/byte_order.hpp: byteswap_elements, deduce_byte_order", "include/field_read/read_impl.hpp: read_foreign_scalar, read_foreign_buffer", "include/field_write/write_impl.hpp: write_foreign_scalar, write_foreign_buffer"]}
{"id": "C26", "title": "Compile-time and run-time streams agree", "statement": "The element-wise path used for constexpr streams and the bulk path used for run-time streams return the same struct or error and consume or emit the same bytes.", "quantifier": "every schema, every input, every struct value", "why_tests_cant": "the two code paths are selected at compile time, so no one test observes both on the same stream", "anchors": ["include/field_read/read_impl.hpp: read_native", "include/field_write/write_impl.hpp: write_native", "docs/compile-time.md"]}
{"id": "C27", "title": "No input causes undefined behaviour", "statement": "For a schema built from the public descriptors, no input to struct_cast makes the library read or write outside an object or produce a value its type does not have.", "quantifier": "every accepted schema, every input byte string", "why_tests_cant": "hostile inputs are unbounded", "anchors": ["include/field_read/read_impl.hpp: read_native_impl", "include/lib/containers/fixed_string.hpp: operator==", "include/api/field_descriptors.hpp: magic_number, basic_field", "include/lib/memory/address_manip.hpp"]}
{"id": "C28", "title": "Assignable exactly when the writer uses the stored value", "statement": "operator[] on a non-const list yields a mutable reference for exactly those fields whose stored value stream_cast emits; length targets are not accessible at all; discriminants and frozen fields are read-only; ids not in the list are rejected.", "quantifier": "every schema, every id", "why_tests_cant": "compile-fail tests cover individual schemas only", "anchors": ["include/field_list/field_list.hpp: struct_field_list_impl::operator[]", "include/field_write/derived_value.hpp: is_derived_target, is_frozen_target", "docs/writing.md"]}
{"id": "C29", "title": "Accepted schemas depend only on earlier fields", "statement": "If struct_field_list accepts a schema then every field named by a length, a predicate, a switch or a ladder exists in the same list and is declared before the field that names it, so a reader never consults a field that has not been read.", "quantifier": "every list of fields", "why_tests_cant": "all schemas; the check is compile-time code", "anchors": ["include/field_list/field_list_metadata.hpp: is_dependencies_resolved", "include/api/struct_field_list.hpp: struct_field_list"]}
{"id": "C30", "title": "Schemas with duplicate ids are rejected and only those", "statement": "The uniqueness check of struct_field_list accepts a list of field ids if and only if they are pairwise distinct.", "quantifier": "every list of ids", "why_tests_cant": "all lists", "anchors": ["include/api/struct_field_list.hpp: has_unique_field_ids", "include/lib/containers/static_set.hpp", "include/lib/algorithms/algorithms.hpp: equal_ranges"]}
{"id": "C31", "title": "Name lookup finds the field with that name", "statement": "The name-to-position table built for a schema maps every declared id to the position of the field that declares it, and no other name to anything.", "quantifier": "every list of at most 256 distinct ids, every name looked up", "why_tests_cant": "all schemas and all names", "anchors": ["include/field_list/field_list_metadata.hpp: field_table_t", "include/lib/containers/static_map.hpp: static_map"]}
{"id": "C32", "title": "Descriptor options are order independent", "statement": "The size, constraint and bound a descriptor resolves from its trailing options do not depend on the order they are written in; omitted options take the documented defaults; two options of one kind are rejected.", "quantifier": "every option pack and every permutation of it", "why_tests_cant": "n! orders of every pack", "anchors": ["include/field/field_options.hpp: size_in_pack, constraint_in_pack, bound_in_pack, pack_options"]}
{"id": "C33", "title": "Narrow declared widths preserve values that fit", "statement": "A field of an integer type declared with fewer bytes than its type holds puts that many bytes on the wire and reads back, in the same byte order, any value that fits that many bytes.", "quantifier": "every integer type, declared width, value, byte order", "why_tests_cant": "existing tests use little endian and a few values", "anchors": ["docs/schema/size-axis.md", "include/field_read/read_impl.hpp: read_foreign_scalar", "include/field_write/write_impl.hpp: write_foreign_scalar"]}
{"id": "C34", "title": "Comparison constraints mean what they say", "statement": "eq{v}, neq{v}, lt{v}, gt{v}, lte{v}, gte{v} and any_of{...} accept a field value exactly when the mathematical comparison with v (membership) holds.", "quantifier": "every integer field type, every constraint operand type, every value", "why_tests_cant": "all value/operand/type combinations", "anchors": ["include/field_validation/field_value_constraints.hpp: eq, neq, lt, gt, lte, gte, any_of", "docs/constraints.md"]}
{"id": "C35", "title": "Computed lengths are verified before writing", "statement": "Writing a container sized by len_from_fields succeeds only if the computation over the struct's siblings equals the container's size; otherwise it fails with found_contradicting_length at the container with nothing of it emitted, and the sibling fields are emitted as stored.", "quantifier": "every callable, every struct value", "why_tests_cant": "callables are arbitrary", "anchors": ["include/field_write/field_writer.hpp: write_field<variable_sized_field_like>, write_field<vector_of_record_field_like>", "docs/schema/computed-values.md"]}
{"id": "C36", "title": "Negative lengths are rejected", "statement": "A signed length field that holds a negative value on the wire makes the read fail with excessive_length before anything is allocated, under the default ceiling or any declared ceiling below the size_t range of negative values.", "quantifier": "every signed length type and negative value, every element size", "why_tests_cant": "all negative values of all types", "anchors": ["include/field_size/field_size_deduce.hpp", "include/field_read/read_impl.hpp: checked_byte_count"]}
{"id": "C37", "title": "Distinct structs have distinct encodings", "statement": "If two structs are both written successfully and emit the same bytes, they agree on every field the writer takes from the struct; moreover no encoding is a proper prefix of another, so concatenated encodings are uniquely decodable.", "quantifier": "every pair of structs of one schema", "why_tests_cant": "pairs of values over all schemas", "anchors": ["include/cast/stream_cast_impl.hpp: stream_cast_impl", "include/cast/struct_cast_impl.hpp: struct_cast_impl"]}
{"id": "C38", "title": "A sequence of structs written to one stream reads back as the same sequence", "statement": "Writing any number of structs, possibly of different schemas, one after another to one stream and then casting them back in the same order yields each of them and consumes the stream exactly.", "quantifier": "every history of writes: any length, any schemas, any values", "why_tests_cant": "unbounded histories", "anchors": ["docs/streams.md", "include/cast/stream_cast_impl.hpp: stream_cast_impl", "include/cast/struct_cast_impl.hpp: struct_cast_impl"]}
{"id": "C39", "title": "Nesting is transparent on the wire", "statement": "A record field contributes exactly the bytes stream_cast of the inner list alone emits, an array or vector of records contributes the concatenation over its elements, and an engaged optional or held alternative contributes exactly what its payload would as a plain field.", "quantifier": "every inner schema and value", "why_tests_cant": "all nested schemas", "anchors": ["include/field_write/field_writer.hpp: write_nested, write_field", "include/field_read/field_reader.hpp: read_buffer_of_records"]}
{"id": "C40", "title": "Library-filled slots cannot influence a write", "statement": "If no callable of the schema reads a derived or frozen slot, two structs that differ only in such slots (at any nesting level) give the same result and the same bytes; and writing a struct or writing the struct obtained by reading it back give the same bytes.", "quantifier": "every schema, every pair of structs differing in hidden slots", "why_tests_cant": "all hidden states", "anchors": ["include/field_write/derived_value.hpp: derive_value, is_frozen_target", "include/cast/stream_cast_impl.hpp: stream_cast_impl"]}
{"id": "C41", "title": "Predicates see on write what the reader will see", "statement": "The sibling values a presence predicate, a ladder, a computed switch or a computed length observes while writing are the values a reader of the emitted bytes will observe.", "quantifier": "every schema and struct value, including callables over derived and frozen siblings", "why_tests_cant": "needs every schema in which a callable reads another field", "anchors": ["include/field_compute/computation_from_fields_impl.hpp: compute_impl", "include/field_write/field_writer.hpp: write_field<optional_field_like>", "docs/schema/optional-and-variant.md"]}
{"id": "C42", "title": "Type ids are unique", "statement": "The compile-time type counter assigns each registered type an id no other type has, and the type recovered from an id is the type registered under it, for up to 1024 types.", "quantifier": "every order of registration, up to the table limit", "why_tests_cant": "every translation unit registers a different sequence", "anchors": ["include/lib/metaprog/mp.hpp: gen, type_id, type_of"]}
{"id": "C43", "title": "The metadata sort sorts", "statement": "The sort used on the schema tables returns a permutation of its input in non-decreasing order, for every input.", "quantifier": "every input array of every length", "why_tests_cant": "all arrays", "anchors": ["include/lib/algorithms/algorithms.hpp: sort_ranges"]}
{"id": "C44", "title": "Failed streams fail the cast", "statement": "A cast on a stream that has already failed reports buffer_exhaustion at the first field that has to touch the stream, and no success is ever reported unless every byte the struct consists of was delivered (read) or accepted (written).", "quantifier": "every schema, every already-failed stream, every arbitrary pattern of refusals", "why_tests_cant": "arbitrary refusal patterns", "anchors": ["include/field_read/read_impl.hpp: read_native_impl", "include/field_write/write_impl.hpp: write_native_impl", "docs/streams.md"]}
{"id": "C45", "title": "Round trip for self-consistent schemas", "statement": "Call a schema self-consistent if, in every list of fields it contains: lengths and discriminants name integer fields of the list, match labels are distinct values of the discriminant's type, eq constants are values of their field, slots the library fills are full width or little endian, and no callable or record constraint looks at a slot the library fills. If stream_cast of a struct of such a schema succeeds, and every value the user is responsible for fits its type, declared width and ceiling, then struct_cast in the same byte order on the emitted bytes followed by anything gives the struct with its slots filled and leaves exactly what follows.", "quantifier": "every self-consistent schema (nested to any depth), every struct whose user-set values fit, both byte orders, both hosts, every size_t width, every continuation of the stream", "why_tests_cant": "ranges over all nestings of descriptors, all values and all continuations", "anchors": ["include/cast/stream_cast_impl.hpp: stream_cast_impl", "include/cast/struct_cast_impl.hpp: struct_cast_impl", "include/field_write/derived_value.hpp: derive_value", "docs/writing.md"]}
{"id": "C46", "title": "Unique decodability for self-consistent schemas", "statement": "For a self-consistent schema (see C45) and structs whose user-set values fit, no encoding is a proper prefix of another and equal encodings come from structs that are equal except for the slots the library fills.", "quantifier": "every self-consistent schema, every pair of structs written successfully", "why_tests_cant": "ranges over all pairs of values", "anchors": ["include/cast/stream_cast_impl.hpp: stream_cast_impl", "include/cast/struct_cast_impl.hpp: struct_cast_impl", "docs/writing.md"]}
{"id": "C47", "title": "Sequences of structs of self-consistent schemas", "statement": "Any number of structs of any self-consistent schemas (see C45) written one after another to one stream, on top of whatever it already holds, read back in the same order as the same structs with their slots filled, and consume exactly what was added.", "quantifier": "every finite history of writes, every choice of schemas and values", "why_tests_cant": "histories are unbounded", "anchors": ["include/cast/stream_cast_impl.hpp: stream_cast_impl", "include/cast/struct_cast_impl.hpp: struct_cast_impl", "docs/streams.md"]}
{"id": "C48", "title": "Slots nobody looks at cannot influence a write", "statement": "If no callable and no record constraint of the schema looks at a slot the library fills, two structs that agree once their slots are filled make stream_cast behave identically on every stream: the same calls with the same bytes, the same result, even on streams that fail.", "quantifier": "every schema, every pair of structs differing only in slots at any nesting level, every stream behaviour", "why_tests_cant": "ranges over all stream behaviours and all nestings", "anchors": ["include/cast/stream_cast_impl.hpp: stream_cast_impl", "include/field_write/derived_value.hpp: derive_value", "include/field/field_traits.hpp: frozen_value_of"]}
{"id": "C49", "title": "Rewriting what was read, for rewritable schemas", "statement": "Call a schema rewritable if, in every list of fields it contains: lengths and discriminants name integer fields of the list, match labels are values of the discriminant's type and non-negative unless it is as wide as size_t, slots the library fills are no wider than size_t and full width or little endian, and an eq constraint accepts its own constant only. If struct_cast with such a schema succeeds, stream_cast of the unmodified result in the same byte order succeeds and emits exactly the bytes the read consumed.", "quantifier": "every rewritable schema (nested to any depth), every input that parses, both byte orders, both hosts, every size_t width", "why_tests_cant": "ranges over all nestings of descriptors and every input that parses", "anchors": ["include/cast/struct_cast_impl.hpp: struct_cast_impl", "include/cast/stream_cast_impl.hpp: stream_cast_impl", "include/field_write/derived_value.hpp: derive_value, verify_conditional_len"]}
{"id": "C50", "title": "Writing a typed struct stays within defined behaviour", "statement": "For a schema whose lengths and discriminants name integer fields, whose constraints fit their fields (none but a magic string comparing a fixed_string), and whose declared widths do not exceed their types, stream_cast of any struct the C++ type system admits ends with a result or an error on any stream.", "quantifier": "every such schema, every typed struct, every stream behaviour", "why_tests_cant": "The claim is over all schemas, all values (also ones that contradict each other) and all refusal patterns; a sanitizer sees only the executions a test happens to run.", "anchors": ["include/field_write/field_writer.hpp", "include/field_write/write_impl.hpp", "include/field_write/derived_value.hpp"]}
{"id": "C51", "title": "A full-width or little-endian length slot is the container's size", "statement": "For a slot that is full width or little endian and that no callable of its list reads: on success the slot's bytes, read as a number in wire order, are the element count of each container sized by it, and the stored value has no influence on the write on any stream.", "quantifier": "every schema, every typed struct, every stored value, every stream", "why_tests_cant": "Independence of a stored value is a relation between all pairs of runs.", "anchors": ["include/field_write/derived_value.hpp:251-306", "include/field_write/field_writer.hpp:31-56"]}
{"id": "C52", "title": "A reader finds the label of the held alternative", "statement": "For a self-consistent schema, if writing a struct succeeds then reading the bytes back yields the label of the alternative each type_switch union held in the union's discriminant, and that same alternative.", "quantifier": "every self-consistent schema, every storable struct, every following input", "why_tests_cant": "Quantifies over all schemas, alternatives and label values.", "anchors": ["include/field_write/derived_value.hpp:44-77", "include/field_read/type_impl.hpp"]}
{"id": "C53", "title": "Different implied values always contradict", "statement": "For a slot no wider than size_t whose labels are values of its type: two fields that imply different values make the write fail with found_contradicting_length at the slot with nothing of it or after it emitted (unless an earlier field stopped the write); if all producers and all active conditional containers agree the write never fails that way.", "quantifier": "every such slot, every typed struct", "why_tests_cant": "Detection must hold for every pair of values; a wrapped comparison is only visible at the extremes.", "anchors": ["include/field_write/derived_value.hpp:251-306"]}
{"id": "C54", "title": "A derived value is written exactly or not at all", "statement": "For a slot no wider than size_t, full width or little endian, whose labels are values of its type: if the implied value is not representable in the slot's type and declared width the write fails with validation_failure at the slot with nothing of it emitted (unless an earlier field stopped the write), and if the write succeeds a reader of the slot gets exactly the implied value.", "quantifier": "every such slot, every implied value", "why_tests_cant": "The boundary depends on type, width and platform; only a proof covers all of them.", "anchors": ["include/field_write/derived_value.hpp:299-305"]}
{"id": "C55", "title": "A constant that fits is emitted, never at fault, and read back", "statement": "For a fixed-size field constrained with eq whose constant fits the field and satisfies its own constraint, that is no length or discriminant and that no callable reads: its bytes are the constant's whatever is stored (the stored value has no influence on any stream), the field is never the one a write on a healthy stream fails at, and reading the bytes with the descriptor yields the constant.", "quantifier": "every such field, every position in every schema, every struct, every stored value, every stream", "why_tests_cant": "Independence of the stored value and absence of a failure are claims over all structs around the field.", "anchors": ["include/field_write/field_writer.hpp", "include/field_write/derived_value.hpp"]}
{"id": "C56", "title": "A union is its first matching alternative in place", "statement": "Reading a union is reading its first matching alternative as a plain field in its place (same error, same stream, value wrapped, then the union's own constraint), or type_deduction_failure with the stream untouched when nothing matches. Writing a union with a computed switch or ladder, its own constraint satisfied, fails with type_deduction_failure if nothing matches over the stored siblings, with validation_failure if another alternative is the first to match, nothing of the union emitted; success means the held one is the first match.", "quantifier": "every accepted schema, every alternative, every stream behaviour, every typed struct", "why_tests_cant": "Equality of two reads over all inputs and all schemas.", "anchors": ["include/type_deduction", "include/field_read/field_reader.hpp", "include/field_write/field_writer.hpp"]}
{"id": "C57", "title": "Conditional lengths of at most size_t are verified exactly when in play", "statement": "For a number no wider than size_t that is not a constant and is a length only from inside optionals and unions, its own constraint satisfied: the write fails with found_contradicting_length at it with nothing of it emitted if some container in play sized by it has a different number of elements (unless an earlier field stopped the write), never fails for that reason otherwise; a successful write emitted it as stored and all such containers have exactly that many elements.", "quantifier": "every such field, every schema, every typed struct", "why_tests_cant": "Both directions of an equivalence over all structs.", "anchors": ["include/field_write/derived_value.hpp", "include/field_write/field_writer.hpp"]}
{"id": "C58", "title": "A failed write is cut at a field, at every level", "statement": "If stream_cast fails on a stream that refuses nothing, the stream has received all fields before the one named in the error completely, then nothing of that field, or, if the field holds records, some whole records and a part of one that is itself cut at a field.", "quantifier": "every schema, every struct, every failing write", "why_tests_cant": "The shape of partial output must hold for every failure position at every nesting depth.", "anchors": ["include/field_write/field_writer.hpp", "include/field_write/write_impl.hpp", "include/cast/stream_cast_impl.hpp"]}
{"id": "C59", "title": "Computed lengths of selected containers are verified", "statement": "For a container sized by len_from_fields that is selected and satisfies its constraints, in a typed struct of an accepted schema: the computation has a value; if as size_t it differs from the number of elements, the write fails with found_contradicting_length at the field with nothing of it emitted (unless an earlier field stopped the write); if the write succeeds they are equal.", "quantifier": "every such container, plain, optional or alternative, every computation, every typed struct", "why_tests_cant": "The computation is an arbitrary function; only a proof covers all of them.", "anchors": ["include/field_write/write_impl.hpp", "include/field_compute"]}
{"id": "C60", "title": "Comparison constraints compare in the operand's type", "statement": "eq, neq, lt, gt, lte, gte and any_of over integers always answer; they accept a field value exactly when the value, converted to the type of the constraint's operand (the value of that type congruent to it modulo the number of values of the type), compares as named with the operand (is one of the operands).", "quantifier": "every comparison, every operand type and operand, every integer field value", "why_tests_cant": "C34 is false for operands of a type that cannot hold the field's value; which values are accepted then depends on modular arithmetic over the whole range of both types, of which tests see a handful", "anchors": ["include/field_validation/field_value_constraints.hpp: eq, neq, lt, gt, lte, gte, any_of"]}
{"id": "C61", "title": "Narrow declared widths keep low or high bytes", "statement": "A field of an integer type declared with w bytes, fewer than the type has, emits exactly w bytes; read back in the same byte order on any host they give the value's w low bytes zero extended (little endian) or its w high bytes with the remaining low bytes zero (big endian).", "quantifier": "every integer type, every declared width below its size, every value, both byte orders, both hosts", "why_tests_cant": "C33 is false big endian and for negative values; the exact value that comes back is an arithmetic statement over all values and widths", "anchors": ["include/field_read/read_impl.hpp: read_native_impl, read_foreign_scalar", "include/field_write/write_impl.hpp: write_native_impl, write_foreign_scalar", "docs/schema/size-axis.md"]}
{"id": "C62", "title": "What eq and neq over strings and arrays compare", "statement": "eq and neq over a fixed_string compare value and operand up to their first NUL and ignore what follows; a value without a NUL makes the comparison run past the object; eq and neq over an array compare all elements.", "quantifier": "every value and operand, of every length", "why_tests_cant": "strings with embedded, missing or different numbers of terminators are rarely in test data, and running past the object goes unnoticed", "anchors": ["include/field_validation/field_value_constraints.hpp: eq, neq", "include/lib/containers/fixed_string.hpp: operator=="]}
{"id": "C63", "title": "Compile-time and run-time streams agree up to what failures leave on a stream", "statement": "On any two healthy streams with the same bytes (or room), a cast at compile time (element-wise path) and one at run time (bulk path) return the same struct or error, and after success have consumed or emitted the same bytes; on one memstream the whole stream state agrees, after failures too. For schemas with a vector whose elements are made of bool the alternative is that the compile-time cast leaves defined behaviour.", "quantifier": "every schema, every input, every struct as C++ types it, every pair of streams abiding by the contract", "why_tests_cant": "the two code paths are selected at compile time; all streams and all points of failure", "anchors": ["include/field_read/read_impl.hpp: read_native", "include/field_write/write_impl.hpp: write_native, write_foreign_buffer", "test/utils/constexpr_memstream.hpp"]}
{"id": "C64", "title": "Reading leaves defined behaviour only in the listed ways", "statement": "If struct_cast leaves defined behaviour on some input, then in one of the ways that can be read off the schema: the schema has a bool (a byte that is neither 0 nor 1), a number with a width above the size of its type, a vector with a ceiling above PTRDIFF_MAX, or an eq/neq over a fixed_string. A schema with none of these never does, whatever the input and the stream.", "quantifier": "every well-formed schema whose lengths and discriminants name integer fields and whose constraints fit their fields, every stream in every state", "why_tests_cant": "hostile inputs and streams are unbounded", "anchors": ["include/field_read/read_impl.hpp: read_native_impl", "include/lib/containers/fixed_string.hpp: operator==", "include/api/field_descriptors.hpp: magic_number", "include/field_read/read_impl.hpp: read_vector"]}
{"id": "C65", "title": "Lookup of every name, the empty one included", "statement": "The name table of a list of at most 256 distinct ids finds a non-empty name exactly if it is declared, with the type and position of the field that declares it; the empty name is found in every table of fewer than 256 ids, with type 0 and position 0 whether declared or not.", "quantifier": "every list of at most 256 distinct ids, every order on names, every name looked up", "why_tests_cant": "all tables and all names; the padding of the table is invisible to a test that only looks up declared names", "anchors": ["include/lib/containers/static_map.hpp: static_map", "include/field_list/field_list_metadata.hpp: generate_field_table"]}
{"id": "C66", "title": "Exactly the accepted schemas", "statement": "Of a list whose names are not empty, struct_field_list accepts exactly those with distinct names, at most 256 fields, dependencies within the limits of the tables, each on a field declared up to and including the one that has it or on the empty name; with those two cases excluded, accepting every list of a schema is the same as the schema being well formed within the limits.", "quantifier": "every list of fields, every nesting, every assignment of type ids", "why_tests_cant": "every schema; a compile-fail test shows one rejection", "anchors": ["include/field_list/field_list_metadata.hpp: is_dependencies_resolved", "include/api/struct_field_list.hpp: struct_field_list"]}
{"id": "C67", "title": "Access policy for non-empty names", "statement": "For every list of at most 256 fields with distinct names and type ids, and every non-empty name: operator[] on a non-const list gives the field of that name unless it is a derived length, read-only exactly for discriminants and constants; a successful write emits for an assignable field the bytes its stored value makes, and for any other field makes the same calls whatever is stored, unless a callable reads it.", "quantifier": "every schema, name, stored value and output stream", "why_tests_cant": "compile-fail tests cover individual schemas; emission for every stored value needs a proof", "anchors": ["include/field_list/field_list.hpp: struct_field_list_impl::operator[]", "include/field_write/field_writer.hpp: write_field"]}
{"id": "C68", "title": "Callables see the same siblings on both sides", "statement": "For a self-consistent schema and a struct whose values fit their fields: when a struct has been written and the emitted bytes are read, at every place of the struct, at any depth, every sibling that a presence predicate, a ladder branch, a computed switch or a computed length of a field reads has the same value in the struct being written as in the struct being read at the moment the reader comes to that field; so every such callable has the same result on both sides.", "quantifier": "every self-consistent schema, every storable struct value, every list of fields at any depth, every field of it and every sibling a callable reads, whatever follows the emitted bytes", "why_tests_cant": "needs every schema in which a callable reads another field, at any nesting depth", "anchors": ["include/field_compute/computation_from_fields_impl.hpp: compute_impl", "include/field_write/field_writer.hpp: write_field<optional_field_like>", "include/field_read/field_reader.hpp: read_field<optional_field_like>"]}
{"id": "C69", "title": "Exactly the valid structs are written", "statement": "For a self-consistent and rewritable schema and a struct whose user-set values fit their fields: stream_cast succeeds if and only if the struct, with the slots the library fills, meets every constraint, every presence predicate, every length and every discriminant, and it then emits exactly the encoding of that struct; otherwise, if the schema has none of the write hazards, it reports an error.", "quantifier": "every such schema, every struct value, every emitted byte string", "why_tests_cant": "needs every struct that is not valid, in every way it can fail to be", "anchors": ["include/cast/stream_cast_impl.hpp: stream_cast_impl", "include/field_write/field_writer.hpp: write_field"]}
{"id": "C70", "title": "Writing and reading have the same language", "statement": "For a self-consistent and rewritable schema the byte strings that stream_cast emits for structs whose values fit are exactly those that struct_cast accepts and consumes whole; the structs that are written to a given accepted string are exactly those which, with the library's slots filled, equal the struct read from it.", "quantifier": "every such schema, every byte string, every struct value", "why_tests_cant": "equality of two infinite sets of byte strings", "anchors": ["include/cast/stream_cast_impl.hpp: stream_cast_impl", "include/cast/struct_cast_impl.hpp: struct_cast_impl"]}
{"id": "C71", "title": "Sizes from the schema", "statement": "From the schema alone one can compute a least and a greatest number of bytes: every successful read consumes, and every successful write of a struct whose values fit emits, a number of bytes between the two; a shorter input is never accepted; if the two agree every encoding has that size.", "quantifier": "every well-formed schema, every input, every storable struct", "why_tests_cant": "needs every value and every nesting of containers, records, optionals and unions", "anchors": ["include/field_read/field_reader.hpp: read_field", "include/field_size/field_size_deduce.hpp", "include/field_write/field_writer.hpp: write_field"]}
{"id": "C72", "title": "Memory and calls are linear in the bytes delivered", "statement": "For every schema in which each record of a vector of records takes at least one byte: whatever a stream delivers and however the cast ends, the bytes allocated are at most a constant of the schema times the bytes delivered, plus the ceilings of one chain of nested containers if the cast fails; on success nothing more; the number of stream accesses is at most a constant of the schema times the bytes delivered plus another.", "quantifier": "every such schema, every input stream with any behaviour", "why_tests_cant": "resource bounds over all inputs and all streams", "anchors": ["include/field_read/read_impl.hpp: read_native", "include/field_read/field_reader.hpp: read_field (vector of records)"]}
{"id": "C73", "title": "A stream written and read at the same time is a queue of structs", "statement": "On a stream whose reads take from the front what its writes append to the back (std::stringstream), any interleaving of successful writes and of reads, of any self-consistent schemas, reads the structs in the order of writing, each with the library's slots filled; when all have been read a further read of a schema that takes at least a byte fails. A failed write breaks this.", "quantifier": "every finite interleaving, every self-consistent schema and storable struct, every stream that satisfies the contract", "why_tests_cant": "all interleavings of all schemas on all streams", "anchors": ["include/cast/stream_cast_impl.hpp: stream_cast_impl", "include/cast/struct_cast_impl.hpp: struct_cast_impl"]}
{"id": "C74", "title": "Appending fields to a schema", "statement": "Let a schema be extended at its end. Where the longer one can be read the shorter one can be read, with the same values, leaving the bytes of the appended fields; what the longer one writes the shorter one reads; where the shorter one fails the longer one fails alike; where the shorter one succeeds the longer one gives the same values for its first fields or fails at an appended field. Data that ends where the shorter schema ends is rejected by the longer if the appended fields take at least a byte, and is accepted, with absent values, if they are optionals whose conditions do not hold.", "quantifier": "every well-formed schema, every split of it, every stream", "why_tests_cant": "all pairs of schemas and all inputs", "anchors": ["include/cast/struct_cast_impl.hpp: struct_cast_impl", "include/cast/stream_cast_impl.hpp: stream_cast_impl"]}
{"id": "C75", "title": "A union that switches on an optional field", "statement": "A union whose discriminant is an optional integer field reads the alternative of the first label equal to the optional's value; if the optional is empty, or no label is its value, the read fails with type_deduction_failure at the union without touching the stream further. A list with such a union cannot be written: stream_cast does not compile.", "quantifier": "every well-formed schema, every stream; every list of declarations", "why_tests_cant": "all schemas, values and streams; absence of an instantiation", "anchors": ["include/type_deduction/type/type_impl.hpp: evaluate", "include/type_deduction/switch/switch_impl.hpp: evaluate_switch", "include/field_write/derived_value.hpp: static_assert"]}
{"id": "C76", "title": "What variance accepts, and that accepted labels select unambiguously", "statement": "variance accepts a type deduction exactly if it has at least one case, all of the right form, no two of the same type and no two labels equal modulo the range of std::size_t (and its options resolve). In a list spelled with the library's descriptors, at every level, labels that are values of their discriminant's type and fit std::size_t are pairwise distinct as the reader compares them.", "quantifier": "every guide, list of cases, option pack and width of size_t; every list of declarations", "why_tests_cant": "all lists of cases", "anchors": ["include/type_deduction/type/type_deduction_metafunctions.hpp: has_unique_match_values", "include/api/field_descriptors.hpp: variance"]}
{"id": "C77", "title": "One specialization for every field", "statement": "For every template argument, some specialization of read_field and write_field applies exactly if it is field_like, and no two apply. A field spelled with a descriptor is field_like unless it is a buffer whose elements are not of one sort all the way down.", "quantifier": "every template argument; every spelled field", "why_tests_cant": "all types, nested at any depth", "anchors": ["include/field/field_traits.hpp: field_like", "include/field_read/field_reader.hpp: read_field", "include/field_write/field_writer.hpp: write_field"]}
{"id": "C78", "title": "What compiles is a well-formed schema", "statement": "A list of fields spelled with the descriptors, for which both casts can be instantiated in the foreign byte order and whose buffers have non-empty elements, stands for a schema with the same names whose parts fit together; lengths and discriminants resolve, at every level, to integer fields of the right type. If struct_field_list accepts it and its lists (names neither empty nor the field's own), it is well formed, and it is self-consistent (round trips hold) exactly if labels and constants are values of their fields, slots are wide enough and callables do not look at derived slots, all of which the library leaves unchecked.", "quantifier": "every list of declarations, every implementation", "why_tests_cant": "all declarations, nested at any depth", "anchors": ["include/api/field_descriptors.hpp: basic_field", "include/api/struct_field_list.hpp: struct_field_list", "include/type_deduction/utils/type_tags.hpp: as_trivial"]}
{"id": "C79", "title": "Which accepted lists can be instantiated", "statement": "Of the lists struct_field_list accepts, the casts can be instantiated for exactly those without: a std::vector<bool>; in the foreign byte order a floating-point type; an optional of a C array or of something that could not be a field itself; a length that names no integer field; a discriminant that names none (reading: nor an optional one, or one that is also a length; writing: an optional one). Each obstacle occurs in an accepted list. What can be instantiated in the foreign byte order can be in the host's.", "quantifier": "every list of declarations, either direction and byte order", "why_tests_cant": "all declarations, nested at any depth", "anchors": ["include/field/field_traits.hpp: optional_field_like", "include/stream/byte_order.hpp: byteswap", "include/field_size/field_size_deduce.hpp: deduce_field_size"]}
{"id": "C80", "title": "What each descriptor stands for", "statement": "For every descriptor and type tag, exactly these option packs compile: basic_field and as_trivial take at most one size and one constraint in either order, the size a number of bytes no larger than the type; containers take a length, at most one constraint and at most one bound, in any order; fixed-sized buffers, strings and records take at most one constraint; constraints have to be callable on the type. Each stands for the field of its kind with the size, constraint and bound given (by default: the size of the type, none, none). magic_* fields have to equal their constant, and magic_number may be wider than its type. maybe takes fields without a constraint. A union has the alternatives of its cases, and the labels or predicates of its cases, in their order.", "quantifier": "every type, option pack and implementation", "why_tests_cant": "option packs of any length and order, all types", "anchors": ["include/api/field_descriptors.hpp: basic_field", "include/api/field_descriptors.hpp: vec_field", "include/type_deduction/utils/type_tags.hpp: as_trivial", "include/field/field_options.hpp: resolved_options"]}
{"id": "C81", "title": "Floating-point values keep their bits", "statement": "Floating-point types occur as alternatives and as elements of buffers. What can be cast in the host's byte order can be in the foreign order exactly if no floating-point type occurs. In the host's order, a full-width floating-point value or buffer of them, by itself, in an optional or in a union, is read from and written to the stream byte for byte as it is in memory, whatever its bits (NaNs, signed zeros).", "quantifier": "every list of declarations, schema, value and stream content", "why_tests_cant": "all bit patterns and all schemas", "anchors": ["include/type_deduction/utils/type_tags.hpp: as_trivial", "include/stream/byte_order.hpp: byteswap", "include/field_read/read_impl.hpp: read_native_impl"]}
{"id": "C82", "title": "Compatible changes of a schema", "statement": "A schema that differs from another only in constraints that accept more, ceilings that are no lower (for vectors of records: that allow no fewer records), and cases appended to unions, at any nesting level, reads everything the other could read, on any stream, with the same result and leaving the stream in the same state. If moreover no field becomes or ceases to be a constant, it writes every struct the other could write, with the same effect on the stream. So what a program with the older schema writes a program with the newer one reads, as the struct with lengths, discriminants and constants filled. The conditions are needed: dropping an eq constraint changes what is written; cases put in front change the meaning of bytes; a case appended to the element of a vector of records makes its elements larger in memory, so that the same max_bytes refuses lists that were read before.", "quantifier": "every pair of schemas so related, every input and output stream, every struct", "why_tests_cant": "all pairs of schemas and all streams", "anchors": ["include/field_read/field_reader.hpp: read_field", "include/field_write/field_writer.hpp: write_field", "include/field_size/field_size.hpp: default_max_bytes"]}
{"id": "C83", "title": "What the range constraints would check", "statement": "range cannot be constructed (its constructor asserts a condition on its parameters), so no program uses is_in_open_range and is_in_closed_range. Their call operators sort the ranges by start and look one up by its end. For all values of the type, whatever order std::sort leaves, the closed check accepts exactly the values in some range if and only if ranges that start no later end no later; the open check if and only if moreover two ranges overlap only if they end together. Ranges of which no two overlap, touching or not, declared in any order, are checked correctly by both. Otherwise there are values in a range that are refused, or the precondition of std::lower_bound is violated.", "quantifier": "every list of ranges, every value, every result of sorting", "why_tests_cant": "all lists and values; the code does not compile", "anchors": ["include/field_validation/field_value_constraints.hpp: is_in_open_range", "include/field_validation/field_value_constraints.hpp: is_in_closed_range", "include/field_validation/field_value_constraints.hpp: range"]}
{"id": "C84", "title": "Names are only names", "statement": "If the fields of a schema, and whatever refers to them, are renamed injectively, and those of nested lists each in their own way, then the casts make the same calls to the stream with the same bytes, the same allocations, and give the same result, except that an error names the renamed field. struct_field_list accepts the one list if and only if it accepts the other, and operator[] gives the same access under the new names, whatever order the names have in the sorted tables (names not empty).", "quantifier": "every schema, every injective renaming, every stream and struct", "why_tests_cant": "all renamings of all schemas", "anchors": ["include/cast/struct_cast_impl.hpp: struct_cast_impl", "include/cast/stream_cast_impl.hpp: stream_cast_impl", "include/field_list/field_list_metadata.hpp: field_table_t", "include/lib/containers/fixed_string.hpp: fixed_string"]}
{"id": "C85", "title": "What can be read and what can be written", "statement": "A list for which stream_cast can be instantiated can be read as well, in the same byte order, unless at some nesting level a union switches on a field that a container takes its length from. A list for which struct_cast can be instantiated can be written as well unless at some level a union switches on an optional. Nothing else that compiles one way fails to the other.", "quantifier": "every list of declarations, either byte order", "why_tests_cant": "all declarations, nested at any depth, and both casts' requirements", "anchors": ["include/field_write/derived_value.hpp: is_derived_target", "include/field_list/field_list.hpp: operator[]"]}
{"id": "C86", "title": "What a read costs in memory, copies included", "statement": "A read copies every list it completes once when it returns it, once more into the field that holds a nested list, and every optional into its field; everything else is moved. However a read ends, at most (copies per level + 1) times the bytes requested by resize are copied, where a byte counts two copies for every list it is nested in and one for every optional, and never are more than twice the requested bytes in use. After a success exactly the bytes of the result are in use, twice as many were at the peak, and the bytes copied are given by the result; what lies d records deep is copied 2d+1 times. With C72: all of it is linear in the bytes delivered.", "quantifier": "every schema, every stream, every outcome", "why_tests_cant": "all schemas and all inputs; copies are not observable in results", "anchors": ["include/cast/struct_cast_impl.hpp: struct_cast_impl", "include/field_read/field_reader.hpp: read_field", "include/field_read/field_reader.hpp: read_buffer_of_records", "include/field_read/field_reader.hpp: read_variant_impl"]}
{"id": "C87", "title": "Reading with little memory", "statement": "An allocator that fails, whenever and however, has no influence on a read except to end it with std::bad_alloc; the stream has then seen the first calls of the read and nothing else. With L bytes of memory, a read that would succeed with a result of n bytes in containers succeeds if 2n ≤ L and otherwise ends in std::bad_alloc, even where the result alone would fit and all its bytes have been consumed. Twice the linear bound of C72 is enough memory for every input of a given length.", "quantifier": "every schema, every stream, every allocator, every limit", "why_tests_cant": "all points at which an allocation can fail, for all schemas and inputs", "anchors": ["include/cast/struct_cast_impl.hpp: struct_cast_impl", "include/field_read/read_impl.hpp: read_native", "include/field_read/field_reader.hpp: read_field"]}
{"id": "C88", "title": "Which constraints there are over which types", "statement": "A constraint can be formed over operands of a type, given to a field and called, exactly in these cases. eq and neq: integers, fixed_string, arrays (std::array, nested or not) of these and arrays of floating-point numbers, but not a floating-point number. lt, gt and lte: integers, floating-point numbers and arrays of them. gte: integers only (fixed_string meets its own requirement but has no <). any_of: everything eq is there for and floating-point numbers. Over integers, and for eq and neq over arrays of integers, calling them is what the model of the casts has as constraints.", "quantifier": "every constraint, every operand type, every value", "why_tests_cant": "all nested array types; a combination that does not compile cannot be in a test", "anchors": ["include/field_validation/field_value_constraints.hpp: equality_comparable", "include/field_validation/field_value_constraints.hpp: inequality_comparable", "include/field_validation/field_value_constraints.hpp: lte", "include/field_validation/field_value_constraints.hpp: gte", "include/field_validation/field_value_constraints.hpp: any_of"]}
{"id": "C89", "title": "Constraints over floating-point numbers", "statement": "A comparison of a floating-point field with a floating-point operand of the same or a larger type is defined for every value. It accepts the values whose number is less than, greater than, at most the operand's number; any_of those that are one of the operands' numbers; both zeros are the same number. No NaN passes any of them, and nothing passes if the operand is a NaN. For operands of the same type this is the order of the bits read as a number in sign and magnitude. In a struct that was read, such a field is no NaN and its number is where the constraint says.", "quantifier": "every binary32 and binary64 value and operand, every schema and stream", "why_tests_cant": "all pairs of 2^64 values", "anchors": ["include/field_validation/field_value_constraints.hpp: lt", "include/field_validation/field_value_constraints.hpp: gt", "include/field_validation/field_value_constraints.hpp: lte", "include/field_validation/field_value_constraints.hpp: any_of", "include/cast/struct_cast_impl.hpp: struct_cast_impl"]}
{"id": "C90", "title": "Constraints over arrays are lexicographic", "statement": "Comparisons of std::array values, nested or not, with integral or floating-point elements, are defined for all values: eq holds if all elements are equal, lt if at the first place at which the elements are not equal the value's is less. Over integers exactly one of lt, eq and gt holds, and lte unless gt. Over arrays of bytes the comparison is that of the numbers the bytes write in big endian order, whatever byte order is asked of the cast; a read accepts accordingly. An array with a NaN in it passes no eq, the one with the same bits included, and every neq.", "quantifier": "every array type, all values and operands", "why_tests_cant": "all arrays of all lengths and element types", "anchors": ["include/field_validation/field_value_constraints.hpp: eq", "include/field_validation/field_value_constraints.hpp: neq", "include/field_validation/field_value_constraints.hpp: lt", "include/field_validation/field_value_constraints.hpp: gt", "include/field_validation/field_value_constraints.hpp: lte"]}
{"id": "C91", "title": "Integral operands on floating-point fields", "statement": "The functors take their argument by the type of the operand, so eq{5} can be given to a floating-point field although eq does not admit floating-point operands. What is compared is the value without its fraction. The call is undefined exactly if that is no value of the operand's type: for NaN, infinities, and numbers out of range, all of which input can contain. A positive eq{k} accepts the numbers from k up to below k + 1; one that is read as 5.75 is written as 5.", "quantifier": "every operand type and value, every floating-point value", "why_tests_cant": "all floating-point values; undefined behaviour is not observable", "anchors": ["include/field_validation/field_value_constraints.hpp: eq", "include/field/field_options.hpp: constraint_option_like", "include/field/field_traits.hpp: frozen_field_like"]}
{"id": "C92", "title": "A read is a conversation with the user's code", "statement": "Predicates, computations and constraint functors may be code of any kind: their answers may change from call to call, depend on and change anything, the stream included. Whatever they do: a read that succeeds delivers a struct that fits the schema, the bytes it took are the encoding of that struct, and the questions it asked, with their arguments, are determined by the struct: for each optional, computed length, selection and constraint in play one, in order of the fields, about values delivered in the struct. Conversely, if bytes and answers come as in the conversation of a fitting struct, the read delivers that struct.", "quantifier": "every schema, every world (stream and user code over one state), every struct", "why_tests_cant": "stateful callables: tests use pure lambdas", "anchors": ["include/field_compute/computation_from_fields_impl.hpp: compute_impl", "include/cast/struct_cast_impl.hpp: struct_cast_impl", "include/field_read/field_reader.hpp: read_field"]}
{"id": "C93", "title": "User code that is consistent is a function", "statement": "If during a cast no question was answered in two ways, there is a function giving these answers, and the cast either ends in an exception or does exactly what it does with that function in the schema on the stream alone; with the schema's own functions it is the cast of all other properties. Where neither stream nor user code throws, no exception leaves a cast.", "quantifier": "every schema, struct, stream, world that leaves the stream to the library", "why_tests_cant": "all callables; ties the model of callables as functions to code", "anchors": ["include/field_compute/computation_from_fields_impl.hpp: compute_impl", "include/cast/struct_cast_impl.hpp: struct_cast_impl", "include/cast/stream_cast_impl.hpp: stream_cast_impl"]}
{"id": "C94", "title": "A read is broken off inside one field", "statement": "A read that does not succeed (an error, an exception out of the stream or the user's code, an undefined end) is broken off inside one field: the fields before it have been read in full, as in the conversation of their values; since then only that field has been at work, on the list as it stood; only callables of that field have been called. An error names that field. Nothing of later fields has been read or asked.", "quantifier": "every schema, world and way of not succeeding", "why_tests_cant": "exceptions at every point of every schema", "anchors": ["include/cast/struct_cast_impl.hpp: struct_cast_impl", "include/field_read/field_reader.hpp: read_field"]}
{"id": "C95", "title": "The user's code cannot change what is written", "statement": "For every struct there is one string of bytes of which every write, whatever the answers and however it ends, emits a beginning, and all of it if it succeeds. If the write succeeds with some functions as callables, it is what is emitted with them. What answers decide is how far a write gets; a predicate that is asked twice and answers differently can make a write succeed that fails with every function, and whose output no read gives back.", "quantifier": "every schema, struct and world", "why_tests_cant": "stateful callables in the writer", "anchors": ["include/cast/stream_cast_impl.hpp: stream_cast_impl", "include/field_write/field_writer.hpp: write_field", "include/field_write/derived_value.hpp: verify_conditional_len"]}
{"id": "C96", "title": "Round trip with user code", "statement": "For a self-consistent schema and a storable struct: if a write succeeds, in whatever world, and the bytes it emitted, whatever follows them, are read in a world that leaves the stream to the library, and no question was answered in two ways in the course of both, then the read either ends in an exception or delivers the struct with its slots filled and leaves exactly what follows.", "quantifier": "every self-consistent schema, storable struct and pair of worlds", "why_tests_cant": "round trips with callables that are not functions by construction", "anchors": ["include/cast/stream_cast_impl.hpp: stream_cast_impl", "include/cast/struct_cast_impl.hpp: struct_cast_impl", "include/field_compute/computation_from_fields_impl.hpp: compute_impl"]}
{"id": "C97", "title": "What a write asks of the user's code", "statement": "A write that succeeds, in whatever world, has called the user's callables exactly as the struct determines and in this order, each with values of the struct as arguments: for every field its constraint, unless the library fills the field; the predicates, calculation or computed length of the field; for a field the library fills, its constraint on the value filled in; and for a length, the predicates of the engaged optional containers it counts. A write that does not succeed has asked the questions of all fields before one field and after that only callables of that field or of the optional containers it is the length of; an error names that field.", "quantifier": "every well-formed schema, typed struct and world", "why_tests_cant": "the number and order of calls for every schema and every way of ending", "anchors": ["include/cast/stream_cast_impl.hpp: stream_cast_impl", "include/field_write/field_writer.hpp: write_field", "include/field_write/derived_value.hpp: verify_conditional_len"]}
{"id": "C98", "title": "Lengths and discriminants are integers", "statement": "If either cast compiles for a list spelled with the descriptors, every field that a length is taken from, at every nesting level, is an integer, and every discriminant is an integer or an optional integer. In the foreign byte order this holds however the fields are spelled. In the host's byte order it does not: with fields spelled field<...> by hand, a list whose length is a float and whose discriminant is a double can be both read and written.", "quantifier": "every list of declarations, either direction and byte order", "why_tests_cant": "all declarations, nested at any depth", "anchors": ["include/field_size/field_size_deduce.hpp: deduce_field_size", "include/api/field_descriptors.hpp: basic_field", "include/field_write/derived_value.hpp: derive_value"]}
{"id": "C99", "title": "Which accepted lists can be instantiated, exactly", "statement": "Of the lists spelled with the descriptors that struct_field_list accepts, a cast can be instantiated for exactly those without: a std::vector<bool>, unless it is written in the foreign byte order or to a constant-evaluation stream; in the foreign byte order a floating-point type; a C array of C arrays that is read from a constant-evaluation stream; an optional of a C array or of something that could not be a field itself; a length that names no integer field; an unsuitable discriminant. The first three stand in the way however the fields are spelled, and each occurs in an accepted list. What can be instantiated in the foreign byte order can be in the host's, unless a std::vector<bool> is written to a run-time stream.", "quantifier": "every list of declarations, either direction, byte order and kind of stream", "why_tests_cant": "all declarations, nested at any depth", "anchors": ["include/field_write/write_impl.hpp: write_foreign_buffer", "include/field_write/write_impl.hpp: write_native", "include/field_read/read_impl.hpp: read_native_impl"]}
{"id": "C100", "title": "What compiles for run-time and for constant-evaluation streams", "statement": "A list that can be cast with run-time streams can be cast in constant evaluation, in the same direction and byte order, unless a C array of C arrays is read. A list that can be cast in constant evaluation can be cast with run-time streams unless a std::vector<bool> is written in the host's byte order. Nothing else makes a difference.", "quantifier": "every list of declarations, either direction and byte order", "why_tests_cant": "all declarations, nested at any depth", "anchors": ["include/field_write/write_impl.hpp: write_native", "include/field_read/read_impl.hpp: read_native_impl", "include/lib/memory/address_manip.hpp: byte_addressof"]}
{"id": "C101", "title": "What can be read and what can be written, exactly", "statement": "A list for which stream_cast can be instantiated can be read as well, in the same byte order and with the same kind of stream, unless at some nesting level a union switches on a field that a container takes its length from, or there is a std::vector<bool>, or the stream is one for constant evaluation and there is a C array of C arrays. A list for which struct_cast can be instantiated can be written as well unless at some level a union switches on an optional. Nothing else that compiles one way fails to the other.", "quantifier": "every list of declarations, either byte order and kind of stream", "why_tests_cant": "all declarations, nested at any depth, and both casts' requirements", "anchors": ["include/field_write/derived_value.hpp: is_derived_target", "include/field_list/field_list.hpp: operator[]", "include/field_write/write_impl.hpp: write_foreign_buffer"]}
{"id": "C102", "title": "Which lists struct_field_list accepts, the empty one included", "statement": "Of a list whose names are not empty, struct_field_list accepts exactly those with at least one field, distinct names, at most 256 fields, dependencies within the limits of the tables, each on a field declared up to and including the one that has it or on the empty name; with those two cases excluded, accepting every list of a schema is the same as the schema being well formed within the limits and having no empty list.", "quantifier": "every list of fields, every nesting, every assignment of type ids", "why_tests_cant": "all lists; absence of any other reason to be refused", "anchors": ["include/api/struct_field_list.hpp: has_unique_field_ids", "include/field_list/field_list_metadata.hpp: size_dependencies_resolved"]}
{"id": "C103", "title": "What lengths and discriminants have to be, by direction", "statement": "In a list that is spelled with the descriptors, or cast in the foreign byte order: if it can be read, every field a length is taken from, at every nesting level, is an integer, and every discriminant is an integer or an optional integer. If it can be written, every discriminant is an integer, and so is the length of every container that is a field of its own; the length of a container inside an optional or a union may be taken from anything but a std::array, C array or fixed string (or an optional or union of those). A list with lengths taken from an optional and from a vector can be written, in either byte order and to either kind of stream, and not read.", "quantifier": "every list of declarations, either direction, byte order and kind of stream", "why_tests_cant": "all declarations, nested at any depth", "anchors": ["include/field_write/field_writer.hpp: write_field", "include/field_write/derived_value.hpp: is_derived_target", "include/field_size/field_size_deduce.hpp: deduce_field_size"]}
{"id": "C104", "title": "Which accepted lists can be instantiated, exactly, by direction", "statement": "Of the lists spelled with the descriptors that struct_field_list accepts, a cast can be instantiated for exactly those without: a std::vector<bool>, unless it is written in the foreign byte order or to a constant-evaluation stream; in the foreign byte order a floating-point type; a C array of C arrays that is read from a constant-evaluation stream; an optional of a C array or of something that could not be a field itself; a length that names no integer field, except inside an optional or a union that is written, where only arrays and fixed strings stand in the way; a discriminant that is not an integer, or, if it is read, neither an integer nor an optional one, or also the length of a container that is a field.", "quantifier": "every list of declarations, either direction, byte order and kind of stream", "why_tests_cant": "all declarations, nested at any depth", "anchors": ["include/field_write/field_writer.hpp: write_field", "include/field_write/write_impl.hpp: write_foreign_buffer", "include/field_read/read_impl.hpp: read_native_impl"]}
{"id": "C105", "title": "What can be read and what can be written, lengths included", "statement": "A list for which stream_cast can be instantiated can be read as well, in the same byte order and with the same kind of stream, exactly if at no nesting level a union switches on a field that a container takes its length from, every container inside an optional or a union takes its length from a number, there is no std::vector<bool>, and, if the stream is one for constant evaluation, no C array of C arrays. A list for which struct_cast can be instantiated can be written as well exactly if at no level a union switches on an optional.", "quantifier": "every list of declarations, either byte order and kind of stream", "why_tests_cant": "all declarations, nested at any depth, and both casts' requirements", "anchors": ["include/field_write/derived_value.hpp: is_derived_target", "include/field_list/field_list.hpp: operator[]", "include/field_write/field_writer.hpp: write_field"]}
{"id": "C106", "title": "Comparisons with a floating-point operand that round", "statement": "The functors take their argument by the type of the operand, so an integral field, or a double field, compared with a float operand is first converted: to the number itself if the type of the operand has it, else to one of its two neighbours, whichever the implementation chooses. The call is defined for every value. Whatever is chosen, lt{k} and gt{k} accept only numbers less, greater than k; lte{k} accepts all numbers that are at most k, and any_of all that are one of its operands. If the type of the operand has the number, and so for integers of up to 24 (float) or 53 (double) binary digits, the comparison is that of the numbers. Otherwise it is not: 16777217 is refused by gt{16777216.0f} or by lt{16777218.0f} however the implementation rounds; by the former with IEEE 754 rounding, where lte{16777216.0f} and any_of{16777216.0f} accept it.", "quantifier": "every integral and floating-point type and value, every binary32 and binary64 operand, every way to round", "why_tests_cant": "all values and operands; all implementation choices", "anchors": ["include/field_validation/field_value_constraints.hpp: lt", "include/field_validation/field_value_constraints.hpp: lte", "include/field_validation/field_value_constraints.hpp: any_of"]}
{"id": "C107", "title": "What a program can put into a struct", "statement": "A program holds structs that are default-constructed, returned by struct_cast from any stream, or changed from such by assigning, through the reference operator[] gives where it is not to const, a value of the field's type (for records, themselves structs a program can hold). Every field of every such struct, at every nesting level, holds a value of its type, so stream_cast of it to any stream ends with success or an error under the conditions of C50. The value in each field could itself have been assigned, so changing a part in place is an assignment. Derived lengths, discriminants and constants keep what default construction or struct_cast put there, unless a program uses the empty name.", "quantifier": "every schema, every sequence of default constructions, parses and assignments at every nesting level, every stream", "why_tests_cant": "all sequences of operations", "anchors": ["include/field_list/field_list.hpp: struct_field_list_impl", "include/field_list/field_list.hpp: field_is_readable_but_not_assignable", "include/field/field.hpp: field_type value{}", "include/field_list/field_list.hpp: field_is_derived_from_a_length"]}
{"id": "C108", "title": "Everything that can be written can be written without parsing", "statement": "For a schema accepted by the library whose fields have names: every struct, whatever its fields hold, agrees, up to what the library fills in, with a struct a program makes from a default-constructed one by assignments through operator[]. If nothing user-defined looks at what the library fills, stream_cast of the two does the same on every stream; so for a self-consistent and rewritable schema every message struct_cast accepts is emitted by stream_cast of a struct made by assignments. Where a callable looks at a field the library fills this fails: there are messages that no program can write unless it parses one first.", "quantifier": "every schema meeting the conditions, every struct and every message", "why_tests_cant": "all structs and messages", "anchors": ["include/field_list/field_list.hpp: struct_field_list_impl", "include/cast/stream_cast_impl.hpp: stream_cast_impl", "include/field_write/derived_value.hpp: len_obligation"]}
{"id": "C109", "title": "The single header is the library, in order", "statement": "If the headers the entry needs (includes, directly or not) all have one of the extensions the script looks for, do not include each other in a circle, and have no include left open on a line, then what scripts/amalgam.py writes consists, up to blank lines, of: one line per standard header that any file of the directory includes, sorted, without repetition; then, for every header the entry needs and no other, exactly once and after all headers it includes, a begin mark, every line of the header that is not an include of a plain form, in order and unchanged, and an end mark. It does write if Python allows a recursion deeper than the number of files and every include resolves into the directory. With circular includes, or a needed file of another extension, headers are lost.", "quantifier": "every directory tree, every text of the files, every resolution of names, every entry", "why_tests_cant": "all include graphs and texts", "anchors": ["scripts/amalgam.py: get_all_transitive_dependencies", "scripts/amalgam.py: remove_redundant_includes", "scripts/amalgam.py: topological_sort", "scripts/amalgam.py: concatenate_files", "scripts/amalgam.py: process_directory"]}
{"id": "C110", "title": "The single header is reproducible", "statement": "What scripts/amalgam.py writes does not depend on the order in which the operating system lists the files, on where in the file system the directory is, or on the iteration order of Python sets: two trees with the same relative names, texts and resolution of includes give the same output character for character, and fail together.", "quantifier": "every two directory trees related by an injective renaming of paths and a permutation of the walk, every recursion limit", "why_tests_cant": "all walk orders and locations", "anchors": ["scripts/amalgam.py: process_directory", "scripts/amalgam.py: concatenate_files", "scripts/amalgam.py: sorted(std_includes)"]}
{"id": "C111", "title": "The single header asks for nothing else", "statement": "Under the conditions of C109, if moreover every line of a needed header that starts an include with a quotation mark has nothing but white space behind the closing one, no line of what scripts/amalgam.py writes starts an include with a quotation mark: the header can be used without the rest of the directory. A comment behind an include breaks this: the line is neither followed nor removed.", "quantifier": "every directory tree meeting the conditions, every line of the output", "why_tests_cant": "all texts of the headers", "anchors": ["scripts/amalgam.py: include_pattern", "scripts/amalgam.py: process_file", "scripts/amalgam.py: concatenate_files"]}
{"id": "C112", "title": "The documented schemas do what their pages say", "statement": "For each of the schemas shown in README.md and docs/ (firmware_image, log_record, gzip_header, wav_format, tlv_record, extent_record, telemetry_frame, bmp_header, heartbeat, partition_entry, tagged, image_tile) on computers of either byte order with size_t of four or eight bytes, in either wire order and on either kind of stream: reading any bytes and writing any struct is defined; what was read can be written again to the same bytes; what was written is read back up to the fields the library fills in; no message is the beginning of another. The same for examples/hello_s2s.cpp where size_t has eight bytes. The accepted inputs of log_record, gzip_header, tlv_record, wav_format and firmware_image are exactly those their pages describe, with the values described. The callables of the schemas are taken to compute in the integers: pixel_count of image_tile does not (it multiplies two u16 as int, and bytes FF FF FF FF make it overflow), and the schema of test/shipped_header/roundtrip.cpp is not in the list: any four bytes without a zero make reading it undefined.", "quantifier": "every input, every struct, every stream, both host and wire orders, size_t of four or eight bytes", "why_tests_cant": "all inputs to each documented schema on platforms the tests do not run on", "anchors": ["README.md: firmware_image", "docs/writing.md: log_record", "docs/schema/optional-and-variant.md: gzip_header", "docs/schema/optional-and-variant.md: tlv_record", "docs/constraints.md: wav_format", "docs/schema/computed-values.md: pixel_count", "docs/schema/index.md: telemetry_frame", "examples/hello_s2s.cpp: message", "test/shipped_header/roundtrip.cpp: schema"]}
{"id": "C113", "title": "The stream types a cast compiles for", "statement": "A stream type that is not derived from constexpr_stream, converts to bool, and has one read (write) on a raw pointer that returns the stream itself, or something that converts to the standard stream and can be negated, compiles with every field list in both byte orders. So does a type derived from constexpr_stream with the two documented templates over std::array<char, N> and no functions on raw pointers. For a list that reads (writes) anything the conditions are exact: a cast compiles if and only if the type converts to bool and either is untagged, passes the concept, and the call made with a size_t returns something with a negation, or is tagged, does not pass the concept for raw pointers, and takes every array the list hands over. On a constexpr stream no call asks for more bytes than one of those arrays has. The concepts accept more: a type with both forms, for which no cast compiles because the two overloads are ambiguous; a read returning a proxy without a negation; a tagged type without any function; and whether a write on a tagged type compiles can depend on the byte order of the machine.", "quantifier": "every stream type (as far as the library looks at it), every field list, both directions, both byte orders; every stream and state for the sizes of calls", "why_tests_cant": "tests instantiate three stream types with a handful of lists", "anchors": ["include/stream/stream_traits.hpp: input_stream_like", "include/stream/stream_traits.hpp: output_stream_like", "include/stream/stream_traits.hpp: readable", "include/field_read/read_impl.hpp: read_native_impl", "include/field_write/write_impl.hpp: write_native_impl", "include/lib/memory/address_manip.hpp: as_byte_buffer", "docs/streams.md: What a stream must provide"]}
{"id": "C114", "title": "A stream that returns itself is bad afterwards exactly when the cast says so", "statement": "If what a stream's read returns tests as the stream itself does, then a struct_cast that starts on a healthy stream leaves it bad if and only if it reports buffer_exhaustion, whatever the stream does otherwise; the same for write and stream_cast. A stream object that keeps the documented contract is a contract-abiding stream for the library if and only if its read has that property. The concepts also accept a read that returns another stream: a wrapper over a standard stream that marks itself bad at its own limit keeps the documented contract, and the cast succeeds with zeros in place of bytes that were never delivered, because the library tests what read returned and not the stream.", "quantifier": "every stream object, every state, every field list, every struct", "why_tests_cant": "tests use streams whose read returns *this or the standard stream itself", "anchors": ["include/field_read/read_impl.hpp: read_native_impl", "include/field_write/write_impl.hpp: write_native_impl", "include/stream/stream_traits.hpp: std_read_trait", "docs/streams.md: Failure is reported by going bad"]}
{"id": "C115", "title": "What a write sends, exactly", "statement": "For every well-formed schema whose constants are values of their fields' types, every struct as C++ types it and every byte string p: stream_cast succeeds and emits p if and only if some struct is sent for it and p is the wire encoding of that struct. The struct sent is the one written with two changes at every nesting level: a field that lengths or choices are taken from (a slot) holds the number all its producers agree on as std::size_t, provided that number is below 256 to the declared width where the width is less than that of std::size_t and survives the field's type; a constant holds its constant. It is sent only if every constraint holds (of slots: of what is sent; of constants nothing is asked), every optional is present exactly if its predicate says so of the struct as stored, every computed length and choice is what the container and union hold, active containers inside optionals and unions have as many elements as the field of their length says when sent, and no fixed array or string is named as a length. At most one struct is sent, and it is of the types of the schema.", "quantifier": "every well-formed schema, host, struct as C++ types it, byte string", "why_tests_cant": "tests write structs of a few schemas in which all of this agrees", "anchors": ["include/api/stream_cast.hpp: stream_cast_le", "include/cast/stream_cast_impl.hpp: stream_cast_impl", "include/field_write/field_writer.hpp: write_field", "include/field_write/derived_value.hpp: derive_value"]}
{"id": "C116", "title": "A written struct is read back exactly when what was sent is valid", "statement": "For every well-formed schema and every struct as C++ types it that is written: the bytes, whatever follows them, are read back as the struct that was sent, leaving what follows, if and only if that struct is valid (it fits widths and ceilings, its constraints hold and its lengths, presences and choices follow from its own fields). If it is not valid the bytes are read as another struct or not at all. A schema as a whole round-trips if and only if everything that can be sent is valid. Of structs written one after another to one stream all are read back, and the stream is consumed exactly, if and only if all that was sent is valid.", "quantifier": "every well-formed schema, host, struct, sequence of structs, continuation of the stream", "why_tests_cant": "tests round-trip chosen structs of schemas that round-trip", "anchors": ["include/api/struct_cast.hpp: struct_cast_le", "include/api/stream_cast.hpp: stream_cast_le", "include/cast/struct_cast_impl.hpp: struct_cast_impl", "include/cast/stream_cast_impl.hpp: stream_cast_impl"]}
{"id": "C117", "title": "A parsed struct is rewritten as it was exactly when its like is sent", "statement": "For every well-formed schema: a struct that was read from bytes p is written as p if and only if a struct with the same encoding is sent for it, in particular if it is sent itself. A schema as a whole rewrites everything it reads if and only if this is so of every valid struct.", "quantifier": "every well-formed schema, host, input, continuation of the stream", "why_tests_cant": "tests rewrite chosen inputs of schemas that rewrite", "anchors": ["include/api/struct_cast.hpp: struct_cast_le", "include/api/stream_cast.hpp: stream_cast_le", "include/cast/struct_cast_impl.hpp: struct_cast_impl", "include/cast/stream_cast_impl.hpp: stream_cast_impl"]}
{"id": "C118", "title": "Which error a read reports, exactly", "statement": "For every well-formed schema and every byte string: struct_cast reports reason r at field id if and only if the bytes are the encoding of a valid struct of the fields before a field of that name, followed by bytes refused for r where that field is expected. Refused are: a number, array or fixed string for which bytes are missing (buffer_exhaustion); a container whose length exceeds its ceiling (excessive_length), whatever follows, and one within its ceiling and within what can be allocated for which bytes are missing; a container of records whose next record is refused, after whole valid records; a record, optional or alternative that is refused as such; a choice that selects nothing (type_deduction_failure); a value that is all there and that the constraint of its field or alternative rejects (validation_failure). With streams for constant evaluation the elements of a container that are there must be values of their type. No input is refused in two ways, none that begins with a valid struct is refused, and an input that neither begins with one nor is refused leaves defined behaviour. The same holds on every stream that abides by the contract, of the bytes it holds.", "quantifier": "every well-formed schema, host, byte string, reason, field, stream within the contract", "why_tests_cant": "tests provoke each error once or twice; no test shows that an error is reported for nothing else, nor that it is the first one", "anchors": ["include/api/struct_cast.hpp: struct_cast_le", "include/cast/struct_cast_impl.hpp: struct_cast_impl", "include/field_read/field_reader.hpp: read_field", "include/field_read/read_impl.hpp: checked_byte_count"]}
{"id": "C119", "title": "Which error a write reports, exactly, and what is on the wire then", "statement": "For every well-formed schema with constants of the types of their fields and every struct as C++ types it, on a stream that takes everything: stream_cast reports reason r at field id with the bytes p written if and only if the fields before the field of that name are sent (as in C115), the field is not, for r, and p is their encodings followed by what of the field itself is written before it fails. Not sent are: a slot two of whose producers say different numbers (found_contradicting_length) or all say one that its width or type cannot hold (validation_failure) or that its constraint rejects (validation_failure); a number that a container in play in an optional or union contradicts (found_contradicting_length); a container of another size than its computed length (found_contradicting_length); a record, array or vector of records with a field that is not sent, after whole records; an optional that is there when its predicate is false or not there when it is true (validation_failure); a union whose choice comes out at nothing (type_deduction_failure) or at another alternative (validation_failure); a value its constraint, or that of its alternative, rejects (validation_failure). No struct fails in two ways, none that is sent fails, and one that neither is sent nor fails leaves defined behaviour, which with the conditions of C50 none does. On every output stream whatever, an error other than buffer_exhaustion is that one, after exactly those bytes; and where a struct fails it fails on every stream, with that error or because the stream refused bytes before.", "quantifier": "every well-formed schema, host, typed struct, reason, field, output stream", "why_tests_cant": "tests provoke each error once or twice; no test shows that an error is reported for nothing else, that it is the first one, or what is on the wire by then for every schema", "anchors": ["include/api/stream_cast.hpp: stream_cast_le", "include/cast/stream_cast_impl.hpp: stream_cast_impl", "include/field_write/field_writer.hpp: write_field", "include/field_write/derived_value.hpp: derive_value"]}
{"id": "C120", "title": "Writing to a stream with room for so many bytes, exactly", "statement": "For every well-formed schema with constants of the types of their fields, every struct as C++ types it and every output stream with room for n bytes, one that appends what fits and refuses what does not: stream_cast succeeds if and only if the struct is sent (C115) and its encoding is at most n bytes, and the encoding is then what is appended; it reports an error other than buffer_exhaustion if and only if the struct is not sent for that reason at that field (C119) and what is written before it is at most n bytes, and that is then what is appended; and, with the conditions of C50, it reports buffer_exhaustion at field id if and only if the fields before the field of that name are sent and their encodings fit in n bytes, but not followed by what that field puts out, which is its encoding, or as much as comes before its own failure. Exactly one of the three happens for every n, at one field; on a memstream what does not fit is cut at n bytes.", "quantifier": "every well-formed schema, host, typed struct, amount of room, stream with room for so many bytes", "why_tests_cant": "a test writes to buffers of a few sizes; no test shows for every size which field it is that does not fit, or that a fault of the struct is reported in preference exactly when there is room up to it", "anchors": ["include/api/stream_cast.hpp: stream_cast_le", "include/cast/stream_cast_impl.hpp: stream_cast_impl", "include/stream/stream_traits.hpp: output_stream_like", "include/error/cast_error.hpp: error_reason"]}
{"id": "C121", "title": "The containers of constant evaluation hold what they are given", "statement": "For every capacity, element type and input, evaluated in arrays with counters: a static_vector of capacity n takes exactly the inputs of at most n elements, in order, and between its size and its capacity operator[] gives value-initialized elements; with fewer elements than unsigned has values find_index_if gives the first match or the size, equal_ranges compares exactly size and elements, and sort_ranges leaves a sorted permutation and does not touch what is behind the end, and with as many or more elements and no match find_index_if does not end; a static_set holds every element once in the order of first occurrence if these are at most n and is no constant expression otherwise; a static_map of at most n entries gives for each key the value of the last entry with it, missing entries counting as ones with the empty key, and holds each key once, in order; lookup_field has a value exactly if the table has one; the tables of a schema so held are the ones of the list model that the other properties are about; any_of, all_are_same and front of lists of types, and get, pop and size of lists of names, are membership, pairwise equality, first, k-th, drop k and length, and the names of a callable spelled one by one or as one list are the same.", "quantifier": "every capacity, element type, input sequence, strict weak order, width of unsigned, evaluator limit large enough for the loops", "why_tests_cant": "the tests have a few vectors, sets and maps of a few elements; none shows for all inputs that the arrays behind the end are untouched, that the last entry wins, or where the loops stop", "anchors": ["include/lib/containers/static_vector.hpp: static_vector", "include/lib/containers/static_set.hpp: static_set", "include/lib/containers/static_map.hpp: static_map", "include/lib/containers/static_optional.hpp: static_optional", "include/lib/algorithms/algorithms.hpp: sort_ranges", "include/lib/metaprog/typelist.hpp: all_are_same", "include/lib/metaprog/fixed_string_list.hpp: fixed_string_list"]}
{"id": "C122", "title": "A struct with a variant that has no value is never written", "statement": "For every schema and struct in which, at the top or inside records, optionals, alternatives and containers of records, some std::variant has no value (its index is no alternative): stream_cast succeeds on no output stream, and no read gives such a struct. For a union that goes down a ladder or computes its choice, once the fields before it are written, the cast reports the union, as type_deduction_failure if nothing is chosen and as validation_failure if something is, and the union has put nothing out. For a union that switches on a field, once the fields before that field are written, the label of the alternative is looked up behind the end of the labels, so the behaviour is undefined.", "quantifier": "every schema, host, struct with a variant without a value, output stream, input stream", "why_tests_cant": "the tests never make a variant lose its value; that takes an assignment that throws", "anchors": ["include/field_write/derived_value.hpp: discriminant_obligation", "include/field_write/derived_value.hpp: derive_value", "include/field_write/field_writer.hpp: write_variant_impl", "include/cast/stream_cast_impl.hpp: stream_cast_impl"]}
{"id": "C123", "title": "The same bytes mean the same on every platform, up to the ceilings", "statement": "Take two platforms that differ in any of: byte order of the host, width of std::size_t, S2S_DEFAULT_MAX_BYTES, sizeof of the records, run-time or constant-evaluation streams; and casts of the same byte order. For every well-formed schema whose lengths come from types no wider than std::size_t: what the first platform reads as a struct, the second reads as the same struct with the same bytes left, if and only if every container in it, at every level, is within the second platform's ceiling and its largest allocation. Otherwise, if lengths are no wider than its std::size_t either and no ceiling exceeds the largest allocation, it reports excessive_length. So no two such platforms read different structs from the same bytes; what one writes and could read back the other reads; and where both can write what they read, both write it as the same bytes. With a length wider than std::size_t this fails silently: the length is taken modulo its range.", "quantifier": "every pair of platforms, schema, input, struct", "why_tests_cant": "the tests run on the one platform they are compiled for and compare nothing across platforms", "anchors": ["include/field_size/field_size_deduce.hpp: deduce_field_size", "include/field_read/read_impl.hpp: checked_byte_count", "include/field_size/field_size.hpp: bound_in_bytes", "include/field_read/field_reader.hpp: read_field", "include/cast/struct_cast_impl.hpp: struct_cast_impl"]}
{"id": "C124", "title": "From one byte order to the other", "statement": "For every schema in which every number is declared with all the bytes of its type: the structs that can be read are the same in both byte orders. If moreover structs read in one order can be written again, then a struct read in one order can be written in the other; it takes the same number of bytes; read in the other order they are the same struct; written back in the first order it is the bytes it was read from; and different inputs give different outputs. With narrower numbers this holds exactly for the structs valid in the other order: little endian keeps low bytes, big endian high ones.", "quantifier": "every such schema, input, struct, host", "why_tests_cant": "the tests read and write each format in one byte order; converting between them is not tested", "anchors": ["include/stream/byte_order.hpp: byteswap_elements", "include/field_read/read_impl.hpp: read_foreign_scalar", "include/field_write/write_impl.hpp: write_foreign_scalar", "include/api/struct_cast.hpp: struct_cast_le", "include/api/stream_cast.hpp: stream_cast_be"]}
{"id": "C125", "title": "Overwritten bytes damage only the fields they are in", "statement": "Take an input that is read as a struct, and overwrite in it the bytes of some fields by as many other bytes. If no field takes its length, presence or alternative from the fields hit, and how many bytes each of them takes is settled by its siblings (everything except records with parts of varying size), then the read delivers a struct that agrees with the first in every field that was not hit and leaves the same bytes; or it fails at one of the fields hit, and not with buffer_exhaustion; or it leaves defined behaviour, which schemas without the hazards of C64 exclude. If the bytes of such a field are replaced by those of another value it could have there, of whatever size, that value is read and everything else as before. Both conditions are needed. A read that fails with buffer_exhaustion was given fewer bytes than the longest encoding of the schema.", "quantifier": "every well-formed schema, input, choice of fields hit, replacement bytes", "why_tests_cant": "all corruptions of all messages of all schemas", "anchors": ["include/cast/struct_cast_impl.hpp: struct_cast_impl", "include/field_read/field_reader.hpp: read_field", "include/field_compute/computation_from_fields_impl.hpp: compute_impl", "include/field_size/field_size_deduce.hpp: deduce_field_size"]}
{"id": "C126", "title": "Read, edit, write: only the edited fields and their slots change", "statement": "A struct is read, some of its fields are assigned other values, and the result is written. If the write succeeds, its bytes are those of a struct that differs from the one read only in the fields assigned to and in the slots (lengths, discriminants) the library fills from them, and reading the bytes gives that struct. It succeeds exactly if, with the slots filled, those fields and the fields whose length, presence or alternative follows from one of them are valid beside the others; nothing else is looked at again. Assigning to a field nobody looks at another value it could have there emits the original bytes with those of the field replaced; assigning a container another length, or a union another alternative, emits them with the bytes of the field and of its slot replaced, whatever the struct holds in the slot, if no other field looks at the slot.", "quantifier": "every self-consistent and rewritable schema, input, set of edited fields, new values, contents of the slots", "why_tests_cant": "all edits of all messages of all schemas", "anchors": ["include/cast/stream_cast_impl.hpp: stream_cast_impl", "include/cast/struct_cast_impl.hpp: struct_cast_impl"]}
{"id": "C127", "title": "Unions over labels that are not integers", "statement": "The labels of a union that switches on a field may be floating-point numbers. The library stores each without its fraction (which has to be a std::size_t, or the union does not compile) when it writes, and compares the label itself when it reads. Labels that are integers behave as the switch does. Where the comparison rounds nothing (integers of the type of the field, floating-point numbers with as many digits as it has): labels that are whole numbers are read as those integers; a label that is not whole is read from no input; a struct that was written is read back exactly if the label of the alternative it holds is whole, and otherwise the read of what was written fails at the union with type_deduction_failure. Where it does round, what was written is read back exactly if the first label that compares equal to the stored one is the one it was stored for.", "quantifier": "every schema with such a union, every list of labels, input, struct, rounding mode, platform", "why_tests_cant": "all labels, all values of the field, all schemas around it", "anchors": ["include/type_deduction/switch/match_case.hpp: match_case", "include/type_deduction/switch/switch_impl.hpp: evaluate_switch_impl", "include/field_write/derived_value.hpp: value_at", "include/type_deduction/type/type_deduction_metafunctions.hpp: extract_match_values"]}
{"id": "C128", "title": "Only what lengths, conditions, choices and constraints say matters", "statement": "Two schemas with the same fields whose lengths, predicates, choices and constraints give the same answers beside all values of the siblings, at every nesting level, and with the same ceilings, are read by the same program: every stream sees the same calls, every input gives the same struct or error. If besides the labels of switches over fields and the constants are the same, they are written by the same program. In particular a switch over a computed value may be replaced by the ladder of the comparisons with its labels, and vice versa, and arguments of callables may be given in another order. A switch over a computed value of any type, a floating-point number or an object, selects the first label that compares equal, and fails exactly if none does.", "quantifier": "every pair of such schemas, stream, input, struct, platform", "why_tests_cant": "all pairs of schemas that say the same", "anchors": ["include/type_deduction/switch/switch_impl.hpp: evaluate_switch_impl", "include/type_deduction/if_else_ladder/ladder_impl.hpp: evaluate_ladder", "include/field_compute/computation_from_fields_impl.hpp: compute_impl"]}
{"id": "C129", "title": "The check of the navigation passes exactly if the entries are the pages", "statement": "check_nav.py reports a page on disk exactly if no entry of the navigation names it, an entry exactly if no page on disk has its name, a name exactly if more than one entry has it. It returns 0 exactly if the entries of the navigation are the pages on disk, each once, in some order; without the file it returns 1, without a navigation in it 0 exactly if there are no pages. An entry is a line in the part below `nav:`, up to the next line that is neither empty nor indented nor a comment, that ends in a colon, spaces, and a name with the suffix .md. If no comment has that form, comments do not matter.", "quantifier": "every file, every list of pages without repetitions", "why_tests_cant": "all texts of the configuration file", "anchors": ["scripts/check_nav.py: nav_pages", "scripts/check_nav.py: main"]}
{"id": "C130", "title": "The check of the documentation passes exactly if bound blocks agree with their sources", "statement": "check_doc_examples.py finds exactly the fenced blocks of a page, with their line numbers and the file the line directly above binds them to. It returns 0 exactly if for every bound block the file exists and marks a region equal to the block line by line, and no unbound block has an entry point, i.e. the word main, spaces and an opening parenthesis in one line; otherwise the failure it reports of a block is the one that holds. Of two texts that differ it shows the first line in which they do, unless they contain the words it uses for their ends. A region lies between the first marker that begins one and the first that ends one; if the latter comes first, the region counts as empty.", "quantifier": "every set of pages and files", "why_tests_cant": "all texts of pages and sources", "anchors": ["scripts/check_doc_examples.py: doc_blocks", "scripts/check_doc_examples.py: source_region", "scripts/check_doc_examples.py: main", "scripts/check_doc_examples.py: _first_difference"]}
{"id": "C131", "title": "A list of labels is taken exactly if they convert to different sizes", "statement": "The declaration of a union compiles, as far as the labels are concerned, exactly if every label converts to std::size_t and no two convert to the same value, whether the labels are integers, floating-point numbers or objects of classes. Of labels taken, no value of the field matches two, if comparing the field with the labels rounds nothing; the case selected is then the one whose label is the value, and different alternatives are written with different tags.", "quantifier": "every platform, every list of labels, every type and value of the field", "why_tests_cant": "all lists of labels", "anchors": ["include/type_deduction/type/type_deduction_metafunctions.hpp: extract_match_values", "include/type_deduction/type/type_deduction_metafunctions.hpp: has_unique_match_values"]}
{"id": "C132", "title": "A part of a struct can be read, replaced and written on its own, however deep it lies", "statement": "A struct that stands inside another, as a record, an element of an array or a vector of records, in an optional or in a union, any number of levels down, takes one stretch of the encoding, the rest of which does not depend on it, unless a sibling on the way takes its length, presence or alternative from it. Another struct put there is accepted exactly if it is accepted on its own and the constraints on the way hold: reading the whole from changed bytes then delivers the struct with just that part changed; an error of the part surfaces for the same reason at the outermost field, a constraint on the way that rejects it as validation_failure there. Writing after replacing the part succeeds exactly if writing it alone does and the constraints hold of what it becomes, and emits the old bytes with just its stretch replaced.", "quantifier": "every platform, every schema the library accepts (for writing: self-consistent ones), every place, every struct put there, every input", "why_tests_cant": "places at unbounded depth and all pairs of structs", "anchors": ["include/field_read/field_reader.hpp: read_field", "include/cast/struct_cast_impl.hpp: struct_cast_impl", "include/cast/stream_cast_impl.hpp: stream_cast_impl"]}
{"id": "C133", "title": "A list of fields can be cut where nothing refers across", "statement": "If the last fields of an accepted list form an accepted list of their own, then a cast of the whole list is the cast of the first fields followed by the cast of the last ones on the same stream, in both directions: the same calls to the stream, the same allocations, the same values, the same errors with the same names, the same bytes sent before an error.", "quantifier": "every platform, every list and cut, every stream, every struct", "why_tests_cant": "all streams, lists and cuts", "anchors": ["include/cast/struct_cast_impl.hpp: struct_cast_impl", "include/cast/stream_cast_impl.hpp: stream_cast_impl"]}
{"id": "C134", "title": "Taking fields into a record changes only where errors are reported", "statement": "Let consecutive fields of an accepted list be taken into a record, such that the list with the record is accepted too and nothing after the record refers to it by its name. Then both lists are read and written by the same calls to the stream with the same bytes and allocations; the values of the fields taken together are the values of the record; an error in one of them is reported for the same reason at the record, every other error as before.", "quantifier": "every platform, every list and run of fields, every stream, every struct", "why_tests_cant": "all streams, lists and runs", "anchors": ["include/cast/struct_cast_impl.hpp: struct_cast_impl", "include/cast/stream_cast_impl.hpp: stream_cast_impl", "include/field_read/field_reader.hpp: read_field", "include/field_write/field_writer.hpp: write_nested"]}
{"id": "C135", "title": "What a byte count other than the size of the type does", "statement": "A field of fixed size spelled field<id, T, byte_count{k}, c>. If k is the size of the type it is the field of the descriptors. If k is less, a read takes k bytes and delivers the value whose encoding these bytes and zeros are, and fails with buffer_exhaustion where fewer are left; a write sends the first k bytes of the encoding, but of an array in foreign byte order the whole encoding; what is sent in the first case is read back as the same value exactly if the bytes left out are zeros. If k is more, both casts leave the object, except the write of an array in foreign byte order. So a fixed_string<n> with n bytes is a string without terminator on the wire in both directions, and an array with fewer bytes is written with different sizes by hosts of different byte order.", "quantifier": "every platform, every type a fixed-size field can have, every byte count, every input, every value of the type", "why_tests_cant": "all byte counts, types and values; both hosts", "anchors": ["include/field/field.hpp: field", "include/field_read/read_impl.hpp: read_native_impl", "include/field_read/read_impl.hpp: read_foreign_buffer", "include/field_write/write_impl.hpp: write_native_impl", "include/field_write/write_impl.hpp: write_foreign_buffer"]}
{"id": "C136", "title": "The order of the fields is the order of the bytes and nothing else", "statement": "Let the fields of an accepted list be declared in another order. The other list is accepted exactly if every field still comes after the fields it refers to. Then the bytes one list is read from fall into one piece per field, and these pieces in the other order are read as the same values in that order; and writing does for each field the same, on every stream and whether it succeeds or not, only in the other order. So a struct is written in one order exactly if it is in the other, as the same pieces; in particular the values filled in for lengths and discriminants, and whether lengths contradict one another, do not depend on the order in which the fields that determine them are looked through.", "quantifier": "every platform, every list of fields, every two accepted orders of it, every input, every struct, every stream", "why_tests_cant": "all permutations of all lists", "anchors": ["include/cast/struct_cast_impl.hpp: struct_cast_impl", "include/cast/stream_cast_impl.hpp: stream_cast_impl", "include/field_write/derived_value.hpp: derive_value"]}
{"id": "C137", "title": "A stream that throws", "statement": "A cast on a stream whose read or write may throw ends either as the same cast on the same stream with exceptions switched off, or in the exception thrown by its last stream call, the stream left as that call left it; in the latter case the cast with exceptions switched off reports buffer_exhaustion. What an output stream took before it threw, and what it was given when it threw, are the beginning of what the cast writes to a stream that takes everything. On a stream that throws whenever it would otherwise go bad, the exception takes the place of buffer_exhaustion and of nothing else: every other outcome is that of the quiet stream.", "quantifier": "every platform, every list of fields, every struct, every stream state and every stream behaviour including which calls throw", "why_tests_cant": "a throwing stream can fail at any call; tests use streams that never throw", "anchors": ["include/field_read/read_impl.hpp: read_native_impl", "include/field_write/write_impl.hpp: write_native_impl", "include/cast/struct_cast_impl.hpp: struct_cast_impl", "include/cast/stream_cast_impl.hpp: stream_cast_impl"]}
{"id": "C138", "title": "Fields picked and patched by their offsets", "statement": "Let an accepted list of fields be cut in three, the middle part being accepted on its own, and let the whole be read successfully from some bytes. Then the middle part alone is read, as the same values, from where it begins, which lies between the least and the greatest size of the part before it; so if that part has a fixed size, from that offset. A last part of fixed size is read from the last bytes of what the whole takes. If in addition no later field refers to the middle part and it has a fixed size, other bytes it is read from can be put in its place and the whole is read as before with the other values there; without that condition this fails.", "quantifier": "every platform, every accepted list of fields and every such cut of it, every input, all replacement bytes", "why_tests_cant": "all schemas, cuts and inputs", "anchors": ["include/cast/struct_cast_impl.hpp: struct_cast_impl", "include/field_read/read_impl.hpp: read_native_impl"]}
{"id": "C139", "title": "Lists with fields of fixed size spelled by hand", "statement": "Let a list contain, beside fields of the descriptors, fields field<id, T, byte_count{k}, c> of fixed size spelled by hand, and call the list with sizeof(T) for k the usual list. If the usual list is accepted, then reading succeeds exactly with the valid structs of the usual list in which no k exceeds sizeof(T) and the bytes of the encoding past the k-th of such a field are zero, and takes the encoding without them. Writing a struct succeeds exactly if it does for the usual list and no k exceeds sizeof(T), and sends what the usual list sends with each such field cut to k bytes, except that arrays in the byte order foreign to the host are sent, whatever k is, in full. So what is written is read back exactly if the struct sent is valid, what was cut is zero, and no array was sent in full that is read in part; in foreign order the field after such an array is read from the wrong bytes.", "quantifier": "every platform, every such list, every input, every struct", "why_tests_cant": "all byte counts, types, lists and values", "anchors": ["include/field/field.hpp: field", "include/field_read/field_reader.hpp: read_field", "include/field_write/field_writer.hpp: write_field", "include/field_write/write_impl.hpp: write_foreign_buffer"]}
{"id": "C140", "title": "A header and a choice of bodies is a union of records", "statement": "Let a list be a header of fields followed by one union whose alternatives are records (bodies) and whose type is deduced from the fields of the header. On every stream, whatever it delivers, casting to this list has the same result, and leaves the stream in the same state, as casting to the header, choosing the body with the deduced index and casting to the body from the same stream, except that an error of the body names the union instead of the field in the body. The valid structs of the list are a valid header with a valid struct of the body it selects, and its encoding is the two encodings one after the other. If header, bodies and list can be rewritten, the list sends such a struct as the bytes the casts of its two parts send, and either reader reads them back.", "quantifier": "every platform, every such list, every stream, every struct", "why_tests_cant": "all headers, bodies, deduction rules, streams that fail anywhere", "anchors": ["include/field_read/field_reader.hpp: read_field", "include/cast/struct_cast_impl.hpp: struct_cast_impl", "include/type_deduction/type/type_impl.hpp: deduce_type"]}
{"id": "C141", "title": "Bytes may come in any pieces", "statement": "Let a program keep the bytes that come in a buffer and, whenever a piece has come, cast structs from the start of the buffer until a cast reports buffer_exhaustion, then wait with the bytes before that cast. However the bytes are cut into pieces (empty ones included), the structs cast and the end (waiting with these bytes, failed with this error, left defined behaviour) are those of all the bytes at once. The structs are exactly those whose encodings the bytes begin with; what is kept while waiting does not begin with a struct and is shorter than the longest encoding of the schema. If every struct takes a byte at least, this comes to exactly one end on every input. While valid structs are being sent, the receiver has at every moment cast the structs that have come whole and waits with the rest.", "quantifier": "every platform, every accepted list, every sequence of pieces, every sequence of structs", "why_tests_cant": "all ways of cutting all byte sequences", "anchors": ["include/cast/struct_cast_impl.hpp: struct_cast_impl", "include/field_read/read_impl.hpp: read_native", "include/error/cast_error.hpp: buffer_exhaustion"]}
{"id": "C142", "title": "The number of bytes a descriptor gives", "statement": "If a descriptor gives a field a number of bytes, it is sizeof of the field's type, or at most that if the type is a number, or 0 for a std::array without elements, unless the descriptor is magic_number; inside an optional and in a case of a union there is no exception. So in a list spelled with the descriptors no number, at any level of nesting, takes more bytes than its type has, except one that has to be equal to a number. The exception is real: there is an accepted list of one magic_number whose read is out of bounds on every stream.", "quantifier": "every implementation, every spelled field, case and list", "why_tests_cant": "all types, options and nestings", "anchors": ["include/api/field_descriptors.hpp: magic_number", "include/field/field_options.hpp: field_fits_to_underlying_type", "include/type_deduction/utils/type_tags.hpp: as_trivial"]}
{"id": "C143", "title": "A container of records is its records, one cast after the other", "statement": "A cast of a header that ends in a std::array or a length-prefixed vector of records is the program that casts the header, finds the number of records, and casts that many records from the same stream, one by one: the same result, with the errors of the records reported under the name of the container, and the stream left in the same place, on every stream and whatever happens. A struct of the one list is valid exactly if it is a valid header followed by as many valid records as the header says, within the limit, and its encoding is theirs one after the other. Written by one cast or one by one on one stream the bytes are the same, and both ways of reading read them.", "quantifier": "every configuration, header, record, container, stream and struct", "why_tests_cant": "all headers, records, numbers of them and streams", "anchors": ["include/field_read/field_reader.hpp: read_field", "include/cast/struct_cast_impl.hpp: struct_cast_impl", "include/field_read/read_impl.hpp: checked_byte_count"]}
{"id": "C144", "title": "Strings that have to be one of several", "statement": "A field that is a string of fixed size with eq, neq or any_of over string literals: the characters up to the first NUL, and only those, decide; they have to be those of the operand, other than those of the operand, or those of one of the operands, again up to their first NUL. A read from any stream that delivers the bytes of the field gives all of them as the value if they are allowed and reports a validation failure under the field's name if not; without a NUL among them it is undefined. A write of a string under neq or any_of does the same: allowed strings are written with everything in them, others are refused before anything is written, and one without a NUL is undefined.", "quantifier": "every configuration, name, length, rule with terminated operands, stream and string", "why_tests_cant": "all strings, operands and lengths", "anchors": ["include/field_validation/field_value_constraints.hpp: any_of", "include/lib/containers/fixed_string.hpp: operator=="]}
{"id": "C145", "title": "Arrays and vectors whose elements are empty", "statement": "A list may hold arrays or vectors of std::array<T, 0>, or of arrays of such: elements that hold no numbers but have a sizeof of one byte or more. Reading takes sizeof bytes for each of them in both byte orders: the cast is that of the list with arrays of as many bytes in their places. Writing in the order of the host writes as many, and what it writes is read back. Writing in the other order writes nothing for them: what goes over the wire are the bytes of the other fields alone, and as soon as there is one such element, reading that never gives back the fields that were written.", "quantifier": "every configuration with a run-time stream, list of plain fields with such arrays and vectors anywhere, every size of an element, every valid struct and content of the storage", "why_tests_cant": "all lists, sizes and structs; both orders", "anchors": ["include/field_write/write_impl.hpp: write_foreign_buffer", "include/field_read/read_impl.hpp: read_foreign_buffer"]}
{"id": "C146", "title": "Filled in, or asked for and checked", "statement": "Take a schema and put, for every length taken from a field (len_from_field) and every switch on a field (match_field), at every nesting level, a length computed from that field (len_from_fields) and a switch on a value computed from it (compute), by a function that hands its argument back. Reading, the two are one: the same requests of the stream, the same memory asked for, the same result or error, on every stream. Writing, the second accepts exactly those structs that the first accepts and in which the lengths and discriminants already are what the first would put there, and emits the same bytes; so what the first emits the second emits of the struct with the numbers filled in. This takes that no such number is itself a constant.", "quantifier": "every configuration, schema (reading: well formed with names that resolve; writing: self-consistent and rewritable, lengths and discriminants not constants), struct and stream", "why_tests_cant": "all schemas, structs, streams; nesting of any depth", "anchors": ["include/field_write/derived_value.hpp: len_obligation", "include/type_deduction/type/type.hpp: match_field", "include/field_compute/computation_from_fields.hpp: compute", "include/field_size/field_size.hpp: len_from_fields"]}
{"id": "C147", "title": "An optional is a union with an alternative of no bytes", "statement": "Take a schema and put, for any of its optionals that no length, predicate, computation or choice of the schema looks at, a union: what the optional holds if its predicate is true, else an array of no bytes. Reading, the two do the same on every stream that can be asked for no bytes: the same input is accepted with the same struct (optionals as variants), with the same error at the same field otherwise, and the stream is left the same. Writing, the two accept the same structs and do the same to the stream; what is refused is refused with the same error after the same bytes, unless an optional container whose length another member holds is engaged against its predicate.", "quantifier": "every configuration, schema, set of its optionals that are not looked at, stream with an idle request of no bytes, and struct whose optionals are optionals", "why_tests_cant": "all schemas, sets of optionals, structs, streams", "anchors": ["include/field_read/field_reader.hpp: read_variant_impl", "include/field_write/field_writer.hpp: write_field", "include/field/field.hpp: maybe_field", "include/field/field.hpp: union_field", "include/field_write/derived_value.hpp: verify_conditional_len"]}
{"id": "C148", "title": "Constraints on what an optional holds bind the writer only", "statement": "Let a list contain, beside fields of the descriptors, optionals spelled by hand as maybe_field over a field with a constraint, which the alias maybe does not admit and the list and the casts do. Reading is that of the list without these constraints: they are not looked at. Writing accepts exactly the structs the list without them accepts and whose engaged optionals satisfy them, and does the same to the stream. So what was written is read back, and what was read is written back exactly if what its optionals hold satisfies the constraints.", "quantifier": "every configuration, list with such optionals (no union switching on one of them), struct, stream", "why_tests_cant": "all lists, structs, streams", "anchors": ["include/field/field.hpp: maybe_field", "include/field_read/field_reader.hpp: read_field", "include/field_write/field_writer.hpp: write_field", "include/api/field_descriptors.hpp: maybe"]}
{"id": "C149", "title": "The dimensions of an array are not on the wire", "statement": "Replace arrays of arrays, however deep, among the members and optional members of a list by the flat arrays of their scalars, where nothing looks at them and they have no constraint. Then reading is the same call by call, in either byte order: the same numbers of bytes are asked for, it fails where the other fails, and the struct holds the same scalars in the same order, the last index running fastest. Writing is the same call by call. The one list is accepted exactly if the other is.", "quantifier": "every configuration, list, choice of members, struct whose arrays have the declared dimensions, stream", "why_tests_cant": "all dimensions and depths, all lists, all streams", "anchors": ["include/field_read/read_impl.hpp: read_foreign_buffer", "include/stream/byte_order.hpp: byteswap_elements", "include/field_write/write_impl.hpp: write_foreign_buffer"]}
{"id": "C150", "title": "A record can be replaced by one that reads and writes the same", "statement": "Say that one list stands for another if on the streams at hand it reads the same input, giving the same up to a translation of structs, writes the same from the translated struct, and fails for the same reasons, in fields of whatever names. Replace records, arrays and vectors of records, among the members, optional members and alternatives of unions of a list, by ones whose lists stand for theirs, where nothing looks at these members. Then the list reads the same up to the translation of these members, writes the same, and fails with the same errors in the same fields; so it stands for the one before, and records can be replaced however deep they lie. Lists with flat arrays for arrays of arrays, with unions for optionals, and with other names stand for one another.", "quantifier": "every configuration, pair of lists, translation, stream", "why_tests_cant": "all lists at every depth, all streams", "anchors": ["include/field_read/field_reader.hpp: read_field", "include/field_write/field_writer.hpp: write_nested", "include/cast/struct_cast_impl.hpp: struct_cast_impl"]}
{"id": "C151", "title": "Fields spelled by hand at any depth", "statement": "Take a list in which, at any depth (among the members of records, arrays and vectors of records, in optionals and among the alternatives of unions), fields of fixed size are spelled by hand with any byte count, the bases of optionals have constraints, and arrays and vectors have elements without elements. It is read as a struct exactly if that is valid for the list of the descriptors with the same names and types, every byte count is within its type, what the byte counts leave out of the encoding is zero, elements without elements are not read from constexpr streams, and the input begins with the encoding without what is left out; constraints of the bases of optionals are not looked at. Writing sends what the usual list sends, cut to the byte counts, exactly if the usual list sends it, the byte counts are within the types (except of arrays in the other byte order than the host's, which are sent whole), the constraints of the bases hold of what optionals hold, and elements without elements are not written to constexpr streams in host order (in the other order nothing is sent of them). What was written is read back exactly if it is what is read. With the byte counts of the types and no constraints on bases, the programs are those of the descriptors.", "quantifier": "every configuration, list, struct, input", "why_tests_cant": "all lists at every depth, all structs and inputs", "anchors": ["include/field/field.hpp: maybe_field", "include/field_read/field_reader.hpp: read_field", "include/field_write/field_writer.hpp: write_field"]}
{"id": "C152", "title": "What nobody looks at may have any type of the same bytes", "statement": "A member without a constraint, what an optional holds, or an alternative of a union without constraints, none of them looked at by a length, predicate or switch, may be given another type with the same bytes without changing the calls to the stream, the errors and the fields they are in, or the other members: integers of numbers, arrays and vectors signed instead of unsigned or the other way round; an array of arrays as a flat array; a number of all its bytes as an array of this one number; in host order a fixed string as an array of characters; in host order on little-endian hosts an unsigned number in so many bytes of one type as one in as many bytes of another. The numbers seen signed and unsigned are equal modulo the number of values, and come back from one another. It holds on every stream. It fails where the member is a length (128 in a signed byte is an excessive length), and, in the other order than the host's, for strings (one call against one per character) and for numbers of fewer bytes than their type.", "quantifier": "every configuration, list, struct, stream", "why_tests_cant": "all lists around the field, all values, all streams", "anchors": ["include/field_read/read_impl.hpp: read_native", "include/field_read/read_impl.hpp: read_foreign_scalar", "include/field_write/write_impl.hpp: write_foreign_buffer", "include/stream/byte_order.hpp: byteswap_elements"]}
{"id": "C153", "title": "An array of records that is given a length is read without it and written like a vector", "statement": "A list may have, at any depth, fields whose type is an array of records and whose size is a length taken from a field or computed: only the type is looked at to tell what they are. Reading is the program it would be without these lengths: as many records as the array has, whatever the field says. Writing is the program it would be with vectors in the place of the arrays whose length is from a field: the field is derived from the array, and in optionals and alternatives checked against it. What was written is read back, and says of every such array how many records it has. What was read is written as it was if it says so. If it does not it is read all the same: as a member, it is written back with another count; in an optional, writing refuses what was read. A computed length is looked at by neither.", "quantifier": "every configuration, list and struct", "why_tests_cant": "all schemas with such arrays at any depth, all structs and inputs", "anchors": ["include/field/field_traits.hpp: is_array_of_record_field", "include/field_read/field_reader.hpp: extract_size_from_array_v", "include/field_write/derived_value.hpp: conditional_len_obligation", "include/field_list/field_list_metadata.hpp: extract_unconditional_len_sources"]}
{"id": "C154", "title": "A vector whose count can only be one number is the array of that many elements", "statement": "If the constraint of a field lets one number N through and no other, then a vector, of scalars, arrays or records, that takes its length from that field may be declared as the array of N elements: every input on every stream is read to the same struct, fails with the same error by the same name, and leaves the stream in the same state; and every struct with N elements is written by the same program, where the count in front of the array is a constant or is in the struct. With any other number of elements the vector is refused with validation_failure by the name of its count, before its elements are come to. This needs N elements to be within the ceiling of the vector; of a constexpr stream, elements that are records; a constraint that compares in a type with no fewer values than the count has; and nothing else to take its length from the same field when writing.", "quantifier": "every configuration, stream, schema around the two fields, constraint, struct and input", "why_tests_cant": "all schemas with such a pair of fields, all constraints, all streams and structs", "anchors": ["include/field_read/field_reader.hpp: read_field", "include/field_read/read_impl.hpp: checked_byte_count", "include/field_write/derived_value.hpp: derive_value", "include/field_write/field_writer.hpp: write_field", "include/field/field_traits.hpp: frozen_field_like"]}
{"id": "C155", "title": "excessive_length, exactly, for every container and every length", "statement": "Whatever is read before it, on every stream: a container of n elements of size s, of scalars, arrays or records, itself, in an engaged optional or the selected alternative, makes the cast fail with excessive_length by its name without requesting storage for it exactly if the mathematical product n*s exceeds its ceiling, and then nothing is asked of the stream for it. A vector of records within its ceiling makes the cast fail so exactly if a record in it is refused with excessive_length after the ones before it were read. A length that is negative counts as its residue modulo the range of size_t, whatever its width: the container is refused without storage exactly if that many elements exceed the ceiling, which holds of every negative length no wider than size_t under a ceiling below half of that range.", "quantifier": "every configuration, stream, schema, container, ceiling, element size and length", "why_tests_cant": "all lengths, ceilings, element sizes and streams, and errors that come from within records", "anchors": ["include/field_read/read_impl.hpp: checked_byte_count", "include/field_read/field_reader.hpp: read_field", "include/field_size/field_size_deduce.hpp: deduce_field_size"]}
{"id": "C156", "title": "Schemas whose callables are told of their own field", "statement": "The library accepts a predicate, computed length, computed choice or ladder that names the field it belongs to. It accepts every list of a schema exactly if the types are sane, names are distinct, every dependency is on an earlier field or, of a callable, on its own, within the limits of the tables and without empty lists, provided that no name is empty and no length or discriminant is taken from the very field it is of. Reading such a schema is the same program as reading the well-formed schema in which each callable has its own field fixed to what it is default-constructed with, so what is known of reading well-formed schemas is known of these. A read returns a struct exactly if it fits, its constraints hold, it is shaped by its siblings and those defaults, and its encoding is the input consumed. A write sends, or refuses with a reason at a field, exactly what the schema and the struct say, the callables being told what the struct holds; and what was sent is read back exactly if the reader finds it so shaped. An optional that is there if it is there is written and not read back; one that is there if it is not is read and cannot be written.", "quantifier": "every configuration, schema the library accepts, struct and input", "why_tests_cant": "all schemas with callables over any fields up to their own, at every depth, and all structs and inputs", "anchors": ["include/field_list/field_list_metadata.hpp: is_dependencies_resolved", "include/field_compute/computation_from_fields_impl.hpp: compute_impl", "include/field_read/field_reader.hpp: read_field", "include/field_write/field_writer.hpp: write_field"]}
{"id": "C157", "title": "What one version of a schema writes another reads, exactly", "statement": "For well-formed schemas, self-consistent or not, and structs as C++ types them. When a longer schema has written a struct, a reader of the shorter schema made of its first fields gets the first fields of the struct that was sent, and leaves the bytes of the others, exactly if those first fields are valid for the shorter schema; they are whenever the whole struct sent is valid for the longer one. When a schema has written a struct, a reader of the same schema with constraints relaxed, ceilings raised and cases appended gets the struct that was sent exactly if that is valid for the looser schema; it is whenever it is valid for the schema it was written with.", "quantifier": "every well-formed schema, every split of it, every pair of schemas so related, every typed struct, whatever follows the bytes", "why_tests_cant": "versions of programs are deployed apart; no test has both of all pairs of schemas and all structs", "anchors": ["include/s2s.hpp: struct_cast", "include/s2s.hpp: stream_cast", "include/field_write/field_writer.hpp: write_field", "include/field_read/field_reader.hpp: read_field"]}
{"id": "C158", "title": "The round trips of C127, C143, C145, C148 and C153, exactly", "statement": "For well-formed lists, self-consistent or not, and structs as C++ types them. With optionals whose contents are constrained (C148): a struct is written exactly if the constraints hold and a struct is sent for it by the list without them, and what was written is read back as what was sent exactly if that is valid; what was read is written as it was exactly if the constraints hold and a struct of the same encoding is sent for it. With arrays of records that are given a length (C153): the same, sent by the list with vectors and valid for the list without lengths. With unions over labels that are not integers (C127): what was written is read back as what was sent exactly if that is valid for the reader, and, where the writer would read it back, exactly if the first label that compares equal to the stored one is the one it was stored for. With elements that are empty (C145): in the order of the host what was written is read back as what was sent exactly if that is valid; in the other order what goes over the wire are the bytes of the other fields of what is sent, and as soon as there is one such element, they are never read as what was sent. With a container of records at its end (C143): the one cast sends each record as a cast of its own sends it; if the cast of the header sends what the one cast sends for it, the two ways write the same bytes, and the one cast reads them back as what was sent exactly if that is valid.", "quantifier": "every configuration (elements that are empty: run-time streams), well-formed list and record, typed struct, byte string and continuation of the stream", "why_tests_cant": "the lists for which C127, C143, C145, C148 and C153 hold as they stand are those that are self-consistent or rewritable; the others behave in ways that depend on the bytes", "anchors": ["include/s2s.hpp: struct_cast", "include/s2s.hpp: stream_cast", "include/field_write/derived_value.hpp: len_obligation", "include/field_write/write_impl.hpp: write_foreign_buffer"]}
{"id": "C159", "title": "A part of a struct that was written can be replaced, whatever the schema", "statement": "A struct was written; something else is put at a place inside it (a record, an element of an array or vector of records, an optional, a union, any number of levels down, not looked at by siblings on the way). The write of the whole succeeds exactly if the write of the part alone does and the constraints on the way hold of the part as the struct holds it (its slots not filled); the bytes are those written before, with the stretch of the part replaced by what the write alone emits. If the write of the part alone fails and the constraints hold, the write of the whole fails for the same reason at the outermost field, after the same bytes. If what was sent before is valid, what is sent now is read back exactly if what is sent of the part is valid alone and the constraints hold of it as sent.", "quantifier": "every configuration, every well-formed schema (self-consistent or not), typed struct that was written, place and part", "why_tests_cant": "places at unbounded depth, all pairs of structs, values that do not fit their widths", "anchors": ["include/cast/stream_cast_impl.hpp: stream_cast_impl", "include/cast/struct_cast_impl.hpp: struct_cast_impl", "include/field_write/field_writer.hpp: write_field"]}
{"id": "C160", "title": "Written, edited, written again: which fields are looked at again", "statement": "A struct was written, some fields are assigned, and it is written again. The fields assigned to, those whose length, presence or alternative follows from one of them, and those that one of these looks at (its length or discriminant) are sent as the struct now says; all others are sent as they were, and nothing of them can make the write fail. The write succeeds exactly if the former can be sent, and its bytes are theirs and the old ones of the others. A field that looks at none and that none looks at changes only its own bytes.", "quantifier": "every configuration, every well-formed schema (self-consistent or not), typed struct that was written, set of fields assigned to and values of their types", "why_tests_cant": "all edits of all structs of all schemas, values that do not fit their widths among them", "anchors": ["include/cast/stream_cast_impl.hpp: stream_cast_impl", "include/field_write/derived_value.hpp: len_obligation"]}
{"id": "C161", "title": "Filled in, or asked for and checked, of values that fit", "statement": "The schema that asks (C146) accepts, of the structs whose values fit the widths and ceilings of their fields, exactly those that the schema that fills in accepts and in which the lengths and discriminants already are what it would put there, and emits the same bytes; what the one that fills in emits of such a struct the one that asks emits of it with the numbers filled in. Neither number is a constant. Without the condition that values fit this is false: a number too wide for its field is refused where it is filled in, and cut where it is asked for.", "quantifier": "every configuration, self-consistent and rewritable schema without constant lengths and discriminants, struct whose values fit", "why_tests_cant": "all schemas and structs; nesting of any depth", "anchors": ["include/field_write/derived_value.hpp: len_obligation", "include/field_compute/computation_from_fields.hpp: compute"]}
{"id": "C162", "title": "Lengths that are floating-point numbers", "statement": "Where a length is taken from a float or a double (C98), a read succeeds exactly if it does with the length computed by a callable that drops the fraction, with the same values, and every number used as a length is one: more than -1 and less than 2 to the width of std::size_t. With any other number there (a NaN, an infinity, one too large or too small) the read is undefined; in every other case it is that of the list with computed lengths, error for error. The writer puts the number of elements there. It succeeds exactly if all containers of a length have the same number of elements, the floating-point type has that number, it is below 256 to the declared width where that is less than std::size_t's, the constraint holds of it, and the list with computed lengths is written with that number; the bytes are the latter's. A container of a size the type has not, however the implementation rounds, is never written: a float of its own size says every size up to 2^24, a double every size up to 2^53, and not the next. What is written of values that fit their declared widths is read back with the lengths filled in. For a float declared with fewer bytes than it has this is false: three elements are written, and none is read back.", "quantifier": "every configuration, rounding, stream, list in which numbers used as lengths are not depended on otherwise and are no constants, and struct", "why_tests_cant": "all values of the floating-point types, all sizes, all ways to round", "anchors": ["include/field_size/field_size_deduce.hpp: deduce_field_size", "include/field_write/derived_value.hpp: derive_value", "include/field_write/derived_value.hpp: fits_declared_width", "include/field_write/field_writer.hpp: verify_then_write", "include/cast/struct_cast_impl.hpp: struct_cast_impl", "include/cast/stream_cast_impl.hpp: stream_cast_impl"]}
{"id": "C163", "title": "Discriminants that are floating-point numbers", "statement": "Where a union switches on a float or a double (C98) and its labels are integers, the read is, byte for byte and error for error, that of the list whose union is chosen by predicates: the first label that, converted to the floating-point type, is the number read. No read becomes undefined by it: a NaN, or a fraction that is no label, is a type_deduction_failure. The writer puts the label of the alternative held there, as a std::size_t. It succeeds only if all unions of a discriminant hold alternatives with the same label, the floating-point type has that number, it is below 256 to the declared width where that is less than std::size_t's, and the constraint holds of it; the bytes are then those of the list with any predicates that choose the alternatives held. What is written is read back with the discriminants filled in if every label tells its alternative: std::size_t has it, and no label before it is the same number of the floating-point type. With any other label no read, whatever the bytes, returns the alternative next to the number that is written for it. Different labels that std::size_t and the type have tell all alternatives. For labels that are accepted this is false otherwise: 2^24 after 2^24 + 1 on a float is written and read back as the other alternative, the least 64-bit number on a double is written and not read back, and writing the alternative labelled -1 on a double is undefined.", "quantifier": "every configuration, rounding, stream, list in which numbers used as discriminants are not depended on otherwise and are no constants, and struct", "why_tests_cant": "all values of the floating-point types, all labels, all ways to round", "anchors": ["include/type_deduction/switch/switch_impl.hpp: evaluate_switch", "include/type_deduction/type/type_impl.hpp: deduce_type", "include/field_write/derived_value.hpp: discriminant_obligation", "include/field_write/derived_value.hpp: derive_value", "include/field_write/derived_value.hpp: fits_declared_width", "include/cast/struct_cast_impl.hpp: struct_cast_impl", "include/cast/stream_cast_impl.hpp: stream_cast_impl"]}
{"id": "C164", "title": "Optional containers whose lengths are floating-point numbers", "statement": "Where the length of a maybe_field of a container is a float or a double (C98), the read is, byte for byte and error for error, that of the list whose length is computed by a callable that drops the fraction, as long as the number is a length for every optional that is there; otherwise it is undefined. A number that is the length of an optional that is not there is not looked at by the reader. The writer does not replace the number, as it does for a container that is no optional (C162): it is written as it is, fraction and all. It succeeds if and only if the list with computed lengths does and every number that is the length of some optional, there or not, is a length that all its optionals agree with. If one of them is there with another size, found_contradicting_length is reported for the number before anything of it is written; if the number is no length, writing is undefined at that point, though the optional be absent. What is written is read back with the numbers as they were. Not everything that is read can be written: a NaN before an absent optional is read, and writing what was read is undefined.", "quantifier": "every configuration, rounding, stream, list in which numbers used as lengths of optionals are depended on by nothing but these optionals and are no constants, predicate, and struct", "why_tests_cant": "all values of the floating-point types, all predicates and containers", "anchors": ["include/field/field.hpp: maybe_field", "include/field_size/field_size_deduce.hpp: deduce_field_size", "include/field_write/derived_value.hpp: conditionally_obligates", "include/field_write/derived_value.hpp: verify_conditional_len", "include/field_write/field_writer.hpp: verify_then_write", "include/cast/struct_cast_impl.hpp: struct_cast_impl", "include/cast/stream_cast_impl.hpp: stream_cast_impl"]}
{"id": "C165", "title": "What can be read and what can be written, with sizes of any kind", "statement": "Spelled by hand, records and arrays and vectors of records can be given any size. A list for which stream_cast can be instantiated can be read as well, in the same byte order and with the same kind of stream, exactly if at no nesting level a union switches on a field that another field takes its length from, everything inside an optional or a union that takes its length from a field, other than a record or an array of records, takes it from a number, every vector of records has a length, there is no std::vector<bool>, and, if the stream is one for constant evaluation, no C array of C arrays. A list for which struct_cast can be instantiated can be written as well exactly if at no level a union switches on an optional, no record that is a field of its own is given a length from a field, one inside an optional or a union only from something that is not of fixed size, an array of records that is a field of its own only from a number, and one inside an optional or a union from no std::array, C array or fixed string. In a list that can be read in the foreign byte order, however it is spelled, every length that is used is an integer and every discriminant is an integer or an optional integer. The sizes the descriptors give meet every condition on sizes of records.", "quantifier": "every list of declarations, either byte order and kind of stream", "why_tests_cant": "all declarations, nested at any depth, and both casts' requirements", "anchors": ["include/field_write/field_writer.hpp: write_field", "include/field_read/field_reader.hpp: read_field", "include/field_write/derived_value.hpp: derive_value", "include/field_write/derived_value.hpp: verify_conditional_len", "include/field_size/field_size_deduce.hpp: deduce_field_size", "include/field/field_traits.hpp: fixed_sized_field_like"]}
{"id": "C166", "title": "Records that are given a size are read and written without it; vectors of records without a length are written like arrays", "statement": "A list may have, at any depth, records that are given a size of any kind, and vectors of records that are given one that is no length: only the type is looked at to tell what they are. Reading, if every vector has a length, is the program it would be if the records had no size: one list without the sizes, the same for all structs. Writing, if no record is a field of its own with a length from a field and nothing of fixed size is what a record in an optional or a union takes its length from, is the program it would be if the records had no size and each vector without a length were an array of as many records as the struct has there. So what was written by a self-consistent list is read back, by the list itself if it can be read and else by the list with those arrays, and what was read by a rewritable one is written as it was. Arrays of records that are given a length may be in the same list, and are read and written as they are without these sizes (C153): what was read is then written as it was if it says how many records they have. Without a length two structs can be written as the same bytes.", "quantifier": "every configuration, list whose arrays and vectors of records have no vectors without a length in their records, struct and input", "why_tests_cant": "all schemas with such records and vectors at any depth, all structs and inputs", "anchors": ["include/field/field_traits.hpp: is_struct_field", "include/field/field_traits.hpp: is_vector_of_record_field", "include/field_read/field_reader.hpp: read_field", "include/field_write/field_writer.hpp: write_nested", "include/field_write/derived_value.hpp: verify_conditional_len"]}
{"id": "C167", "title": "The round trips of C162, C163, C164 and C166, exactly", "statement": "For well-formed lists, self-consistent or not, and structs as C++ types them. With lengths that are floating-point numbers (C162): a struct is written exactly if a struct is sent for it, with the lengths filled in, by the list with computed lengths; what was written is read back as what was sent exactly if that is valid for that list and its numbers are lengths; what was read is written as it was exactly if a struct of the same encoding is sent for it. With optional containers of such lengths (C164): the same, and written exactly if the numbers in the struct are also lengths that agree with the containers. With discriminants that are floating-point numbers (C163), whose alternatives are told by their labels: the same, sent by and valid for the list that compares with the labels. With records that are given a size and vectors of records without a length (C166): the same, read by the list with arrays in the place of those vectors, and by the list itself if it can be read.", "quantifier": "every configuration, way of rounding, well-formed list, typed struct, byte string and continuation of the stream", "why_tests_cant": "the lists for which C162, C163, C164 and C166 give the round trip are those that are self-consistent or rewritable; the others behave in ways that depend on the bytes", "anchors": ["include/api/struct_cast.hpp: struct_cast_le", "include/api/stream_cast.hpp: stream_cast_le", "include/field_write/derived_value.hpp: derive_value", "include/field_size/field_size_deduce.hpp: deduce_field_size"]}
