{
 "claims": [
  {
   "property": "C01",
   "status": "partial",
   "theorems": [
    "S2S.Props.C01_round_trip_partial",
    "S2S.Props.C01_fails_stale_callable",
    "S2S.Props.C01_fails_lossy_constant",
    "S2S.Props.C01_fails_label_clash",
    "S2S.Props.C01_fails_narrow_big_endian_slot",
    "S2S.Props.C01_fails_above_ceiling",
    "S2S.Props.C01_fails_above_width"
   ],
   "note": "Proved for self-consistent schemas and fitting values (C45). False without each of the conditions: the C01_fails_* theorems are concrete schemas the library accepts."
  },
  {
   "property": "C02",
   "status": "partial",
   "theorems": [
    "S2S.Props.C02_rewrite_partial",
    "S2S.Props.C02_fails_embedded_nul",
    "S2S.Props.C02_fails_lossy_operand",
    "S2S.Props.C02_fails_negative_label",
    "S2S.Props.C02_fails_narrow_big_endian_slot",
    "S2S.Props.C02_fails_wide_length"
   ],
   "note": "Holds for rewritable schemas (C49). False of the library otherwise: five witnesses, each an accepted schema and input."
  },
  {
   "property": "C03",
   "status": "proved",
   "theorems": [
    "S2S.Props.C03_exact_consumption",
    "S2S.Props.C03_consumes_encoding"
   ],
   "note": ""
  },
  {
   "property": "C04",
   "status": "proved",
   "theorems": [
    "S2S.Props.C04_truncation"
   ],
   "note": ""
  },
  {
   "property": "C05",
   "status": "proved",
   "theorems": [
    "S2S.Props.C05_errors_final",
    "S2S.Props.C05_stuck_final"
   ],
   "note": ""
  },
  {
   "property": "C06",
   "status": "proved",
   "theorems": [
    "S2S.Props.C06_stream_independence",
    "S2S.Props.C06_reference"
   ],
   "note": ""
  },
  {
   "property": "C07",
   "status": "proved",
   "theorems": [
    "S2S.Props.C07_constraints_hold"
   ],
   "note": ""
  },
  {
   "property": "C08",
   "status": "proved",
   "theorems": [
    "S2S.Props.C08_shaped_by_fields"
   ],
   "note": ""
  },
  {
   "property": "C09",
   "status": "proved",
   "theorems": [
    "S2S.Props.C09_first_failing_field",
    "S2S.Props.C09_first_failure_decides"
   ],
   "note": ""
  },
  {
   "property": "C10",
   "status": "proved",
   "theorems": [
    "S2S.Props.C10_read_nested",
    "S2S.Props.C10_read_any_depth",
    "S2S.Props.C10_write_nested",
    "S2S.Props.C10_write_any_depth"
   ],
   "note": ""
  },
  {
   "property": "C11",
   "status": "partial",
   "theorems": [
    "S2S.Props.C11_over_ceiling",
    "S2S.Props.C11_iff_partial",
    "S2S.Props.C11_fails_records"
   ],
   "note": "False of vectors of records as stated: within the ceiling the cast may still fail with excessive_length there, because of a container in a record (C11_fails_records). C11_iff_partial is the equivalence for vectors and strings of scalars and arrays, C11_over_ceiling the direction that holds of all; C155 is the exact statement for all."
  },
  {
   "property": "C12",
   "status": "proved",
   "theorems": [
    "S2S.Props.C12_allocation_bounded",
    "S2S.Props.C12_per_field"
   ],
   "note": ""
  },
  {
   "property": "C13",
   "status": "proved",
   "theorems": [
    "S2S.Props.C13_declared_bound_independent",
    "S2S.Props.C13_raising_default_keeps_success"
   ],
   "note": ""
  },
  {
   "property": "C14",
   "status": "proved",
   "theorems": [
    "S2S.Props.C14_read_reasons",
    "S2S.Props.C14_read_exhaustion",
    "S2S.Props.C14_write_reasons"
   ],
   "note": ""
  },
  {
   "property": "C15",
   "status": "partial",
   "theorems": [
    "S2S.Props.C15_length_partial",
    "S2S.Props.C15_stored_partial",
    "S2S.Props.C15_fails_stale",
    "S2S.Props.C15_fails_narrow_big_endian"
   ],
   "note": "As stated false of the code: a callable that reads the slot sees the stored value, and a narrow slot in big endian loses the count. Proved: the exact bytes emitted, and independence of the stored value when no callable reads the slot. See C51."
  },
  {
   "property": "C16",
   "status": "partial",
   "theorems": [
    "S2S.Props.C16_label_partial",
    "S2S.Props.C16_fails_clash",
    "S2S.Props.C16_fails_wide"
   ],
   "note": "As stated false for labels outside the discriminant's type, or wider than size_t, and for narrow slots in big endian. Proved for distinct in-range labels. See C52."
  },
  {
   "property": "C17",
   "status": "partial",
   "theorems": [
    "S2S.Props.C17_contradiction_partial",
    "S2S.Props.C17_agreement_partial",
    "S2S.Props.C17_fails_wide"
   ],
   "note": "False for values that agree modulo the size_t range (32-bit platforms). See C53."
  },
  {
   "property": "C18",
   "status": "partial",
   "theorems": [
    "S2S.Props.C18_truncation_partial",
    "S2S.Props.C18_fails_verified",
    "S2S.Props.C18_fails_narrow_big_endian"
   ],
   "note": "False for verified (conditional) lengths and for narrow slots in big endian. See C54."
  },
  {
   "property": "C19",
   "status": "partial",
   "theorems": [
    "S2S.Props.C19_emitted_partial",
    "S2S.Props.C19_never_fails_partial",
    "S2S.Props.C19_stored_partial",
    "S2S.Props.C19_fails_length",
    "S2S.Props.C19_fails_slot",
    "S2S.Props.C19_fails_lossy",
    "S2S.Props.C19_fails_stale"
   ],
   "note": "False in full: constants that are lengths, slots, do not fit their field or are read by callables (counterexample each). C55 is the conditioned statement, proved in full."
  },
  {
   "property": "C20",
   "status": "proved",
   "theorems": [
    "S2S.Props.C20_write",
    "S2S.Props.C20_write_absent",
    "S2S.Props.C20_mismatch",
    "S2S.Props.C20_decided",
    "S2S.Props.C20_read",
    "S2S.Props.C20_read_absent"
   ],
   "note": "The siblings a write looks at are the stored ones; C41 says when a reader sees the same."
  },
  {
   "property": "C21",
   "status": "partial",
   "theorems": [
    "S2S.Props.C21_read_first",
    "S2S.Props.C21_read_none",
    "S2S.Props.C21_read_exactly_partial",
    "S2S.Props.C21_fails_nested",
    "S2S.Props.C21_write_first_partial",
    "S2S.Props.C21_write_mismatch_partial",
    "S2S.Props.C21_write_none_partial",
    "S2S.Props.C21_fails_stale"
   ],
   "note": "False in full: a union inside an alternative reports type_deduction_failure under the outer union's name; a ladder over a derived field sees the stale value. C56 is the conditioned statement, proved in full."
  },
  {
   "property": "C22",
   "status": "partial",
   "theorems": [
    "S2S.Props.C22_emitted_partial",
    "S2S.Props.C22_mismatch_partial",
    "S2S.Props.C22_otherwise_partial",
    "S2S.Props.C22_fails_constant",
    "S2S.Props.C22_fails_constraint",
    "S2S.Props.C22_fails_wide"
   ],
   "note": "False in full: constants, lengths failing their own constraint, lengths wider than size_t. C57 is the conditioned statement, proved in full."
  },
  {
   "property": "C23",
   "status": "partial",
   "theorems": [
    "S2S.Props.C23_clean_partial",
    "S2S.Props.C23_fails_record"
   ],
   "note": "False for fields that hold records; C58 describes those as well."
  },
  {
   "property": "C24",
   "status": "proved",
   "theorems": [
    "S2S.Props.C24_prefix",
    "S2S.Props.C24_stops",
    "S2S.Props.C24_room",
    "S2S.Props.C24_memstream"
   ],
   "note": "Any output stream whose accepted content only grows by a prefix of what is offered."
  },
  {
   "property": "C25",
   "status": "proved",
   "theorems": [
    "S2S.Props.C25_write",
    "S2S.Props.C25_constant",
    "S2S.Props.C25_length",
    "S2S.Props.C25_label",
    "S2S.Props.C25_read",
    "S2S.Props.C25_inverse",
    "S2S.Props.C25_bytes",
    "S2S.Props.C25_host_read",
    "S2S.Props.C25_host_write"
   ],
   "note": "Positional: the byte of weight 256^i of each integer is in its place (Spec.InOrder). cfg.host is arbitrary throughout. Derived lengths and labels, constants and everything else are covered by separate theorems; host independence is stated a second time as equality of runs on all streams (writing: streams limited by room)."
  },
  {
   "property": "C26",
   "status": "partial",
   "theorems": [
    "S2S.Props.C26_memstream_partial",
    "S2S.Props.C26_fails_consumed",
    "S2S.Props.C26_fails_emitted",
    "S2S.Props.C26_fails_bool"
   ],
   "note": "False as stated after a failure on streams that consume or emit nothing when an access fails, and for vectors of bool elements; three witnesses. C63 is the conditioned version, proved in full."
  },
  {
   "property": "C27",
   "status": "partial",
   "theorems": [
    "S2S.Props.C27_defined_partial",
    "S2S.Props.C27_fails_bool",
    "S2S.Props.C27_fails_width",
    "S2S.Props.C27_fails_string",
    "S2S.Props.C27_fails_ceiling",
    "S2S.Props.C27_fails_conversion"
   ],
   "note": "Holds for schemas without bool, over-wide numbers, ceilings above PTRDIFF_MAX, string comparisons and integral constraints on floating-point fields; each of the five is shown to break it by a concrete accepted schema and input."
  },
  {
   "property": "C28",
   "status": "partial",
   "theorems": [
    "S2S.Props.C28_access_partial",
    "S2S.Props.C28_fails_empty_name"
   ],
   "note": "Full for non-empty names (C67 adds that the stored value is what is written). The empty name resolves to the type with id 0, which can be a derived length: statement false there."
  },
  {
   "property": "C29",
   "status": "partial",
   "theorems": [
    "S2S.Props.C29_earlier_partial",
    "S2S.Props.C29_reader_partial",
    "S2S.Props.C29_fails_self",
    "S2S.Props.C29_fails_empty_name"
   ],
   "note": "False for a field that names itself and for the empty name (accepted, witnesses); proved otherwise, with the consequence for the reader. Exact acceptance in C66."
  },
  {
   "property": "C30",
   "status": "proved",
   "theorems": [
    "S2S.Props.C30_unique"
   ],
   "note": ""
  },
  {
   "property": "C31",
   "status": "partial",
   "theorems": [
    "S2S.Props.C31_lookup_partial",
    "S2S.Props.C31_fails_empty_name"
   ],
   "note": "False for the empty name; proved for all others. Exact lookup in C65."
  },
  {
   "property": "C32",
   "status": "proved",
   "theorems": [
    "S2S.Props.C32_order",
    "S2S.Props.C32_resolved",
    "S2S.Props.C32_two",
    "S2S.Props.C32_defaults"
   ],
   "note": "Options and their classification are arbitrary; C32_defaults fixes the ones of the library."
  },
  {
   "property": "C33",
   "status": "partial",
   "theorems": [
    "S2S.Props.C33_little_partial",
    "S2S.Props.C33_width_partial",
    "S2S.Props.C33_fails_big",
    "S2S.Props.C33_fails_negative"
   ],
   "note": "False big endian (high bytes are sent) and for negative values (zero extension). Proved little endian for non-negative values, and the byte count everywhere. C61 says exactly what comes back."
  },
  {
   "property": "C34",
   "status": "partial",
   "theorems": [
    "S2S.Props.C34_compare_partial",
    "S2S.Props.C34_any_of_partial",
    "S2S.Props.C34_read_partial",
    "S2S.Props.C34_fails_sign",
    "S2S.Props.C34_fails_narrow",
    "S2S.Props.C34_fails_any_of"
   ],
   "note": "False for field values the operand's type does not have, since the value is converted first. Proved for the others. C60 says exactly what is compared."
  },
  {
   "property": "C35",
   "status": "partial",
   "theorems": [
    "S2S.Props.C35_verified",
    "S2S.Props.C35_mismatch_partial",
    "S2S.Props.C35_siblings_partial",
    "S2S.Props.C35_fails_constraint",
    "S2S.Props.C35_fails_siblings"
   ],
   "note": "False in full: containers failing their own constraint, siblings that are slots or constants. C59 is the conditioned statement, proved in full."
  },
  {
   "property": "C36",
   "status": "partial",
   "theorems": [
    "S2S.Props.C36_negative_length_partial",
    "S2S.Props.C36_fails_wider"
   ],
   "note": "False of lengths wider than size_t (C36_fails_wider); proved of the others. C155_negative is exact for every width."
  },
  {
   "property": "C37",
   "status": "partial",
   "theorems": [
    "S2S.Props.C37_unique_decoding_partial",
    "S2S.Props.C37_fails_above_width"
   ],
   "note": "Proved under the conditions of C46; false for values beyond their declared width."
  },
  {
   "property": "C38",
   "status": "partial",
   "theorems": [
    "S2S.Props.C38_sequences_partial",
    "S2S.Props.C38_fails_label_clash"
   ],
   "note": "Proved under the conditions of C47. C38_fails_label_clash: two writes after which both reads succeed with other structs and a byte is left over."
  },
  {
   "property": "C39",
   "status": "proved",
   "theorems": [
    "S2S.Props.C39_transparent",
    "S2S.Props.C39_independent"
   ],
   "note": "Plain fields of fixed size that the library fills in are C15 to C19."
  },
  {
   "property": "C40",
   "status": "partial",
   "theorems": [
    "S2S.Props.C40_slots_ignored",
    "S2S.Props.C40_rewrite_partial",
    "S2S.Props.C40_fails_stale_callable",
    "S2S.Props.C40_fails_label_clash"
   ],
   "note": "First half proved (constraint functors over records count as callables); second half under the conditions of C45, false with clashing labels."
  },
  {
   "property": "C41",
   "status": "partial",
   "theorems": [
    "S2S.Props.C41_same_siblings_partial",
    "S2S.Props.C41_fails_constant",
    "S2S.Props.C41_fails_derived",
    "S2S.Props.C41_fails_wide_value"
   ],
   "note": "False of the code for callables over derived or constant siblings and for values wider than their field: witnesses. Holds for self-consistent schemas and storable values (C68)."
  },
  {
   "property": "C42",
   "status": "proved",
   "theorems": [
    "S2S.Props.C42_ids"
   ],
   "note": "Up to 1025 types, template depth at least 11."
  },
  {
   "property": "C43",
   "status": "proved",
   "theorems": [
    "S2S.Props.C43_sorts",
    "S2S.Props.C43_permutes"
   ],
   "note": "For every strict weak order; loop counters are unsigned in the source, arrays of 2^32 elements are not modelled."
  },
  {
   "property": "C44",
   "status": "proved",
   "theorems": [
    "S2S.Props.C44_read_failed",
    "S2S.Props.C44_read_success",
    "S2S.Props.C44_write_failed",
    "S2S.Props.C44_write_success"
   ],
   "note": "Any stream satisfying the stream contract, whatever it refuses."
  },
  {
   "property": "C45",
   "status": "proved",
   "theorems": [
    "S2S.Props.C45_round_trip"
   ],
   "note": ""
  },
  {
   "property": "C46",
   "status": "proved",
   "theorems": [
    "S2S.Props.C46_unique_decoding"
   ],
   "note": ""
  },
  {
   "property": "C47",
   "status": "proved",
   "theorems": [
    "S2S.Props.C47_sequences"
   ],
   "note": "As in C45, the values fit the widths and ceilings of their fields (`Storable`)."
  },
  {
   "property": "C48",
   "status": "proved",
   "theorems": [
    "S2S.Props.C48_slots_ignored"
   ],
   "note": ""
  },
  {
   "property": "C49",
   "status": "proved",
   "theorems": [
    "S2S.Props.C49_rewrite"
   ],
   "note": "Rewritable in Verif/Spec/Rewrite.lean; no condition on callables or on label uniqueness is needed."
  },
  {
   "property": "C50",
   "status": "proved",
   "theorems": [
    "S2S.Props.C50_defined",
    "S2S.Props.C50_fails_unterminated",
    "S2S.Props.C50_fails_wide"
   ],
   "note": "The _fails_ theorems show that the two conditions on schemas are needed."
  },
  {
   "property": "C51",
   "status": "proved",
   "theorems": [
    "S2S.Props.C51_length"
   ],
   "note": ""
  },
  {
   "property": "C52",
   "status": "proved",
   "theorems": [
    "S2S.Props.C52_discriminant"
   ],
   "note": ""
  },
  {
   "property": "C53",
   "status": "proved",
   "theorems": [
    "S2S.Props.C53_producers"
   ],
   "note": ""
  },
  {
   "property": "C54",
   "status": "proved",
   "theorems": [
    "S2S.Props.C54_no_truncation"
   ],
   "note": ""
  },
  {
   "property": "C55",
   "status": "proved",
   "theorems": [
    "S2S.Props.C55_constant"
   ],
   "note": ""
  },
  {
   "property": "C56",
   "status": "proved",
   "theorems": [
    "S2S.Props.C56_read",
    "S2S.Props.C56_write"
   ],
   "note": ""
  },
  {
   "property": "C57",
   "status": "proved",
   "theorems": [
    "S2S.Props.C57_conditional_length"
   ],
   "note": ""
  },
  {
   "property": "C58",
   "status": "proved",
   "theorems": [
    "S2S.Props.C58_cut"
   ],
   "note": ""
  },
  {
   "property": "C59",
   "status": "proved",
   "theorems": [
    "S2S.Props.C59_computed_length"
   ],
   "note": ""
  },
  {
   "property": "C60",
   "status": "proved",
   "theorems": [
    "S2S.Props.C60_compare",
    "S2S.Props.C60_any_of",
    "S2S.Props.C60_passed"
   ],
   "note": ""
  },
  {
   "property": "C61",
   "status": "proved",
   "theorems": [
    "S2S.Props.C61_narrow"
   ],
   "note": ""
  },
  {
   "property": "C62",
   "status": "proved",
   "theorems": [
    "S2S.Props.C62_string",
    "S2S.Props.C62_unterminated",
    "S2S.Props.C62_array"
   ],
   "note": ""
  },
  {
   "property": "C63",
   "status": "proved",
   "theorems": [
    "S2S.Props.C63_read",
    "S2S.Props.C63_read_memstream",
    "S2S.Props.C63_read_bool",
    "S2S.Props.C63_write",
    "S2S.Props.C63_write_memstream"
   ],
   "note": "Streams that run out of room are those of Spec.Capacity: a write that fits is accepted, one that does not is refused. Constants are values of their fields' types (`TypedConsts`), as in C115."
  },
  {
   "property": "C64",
   "status": "proved",
   "theorems": [
    "S2S.Props.C64_hazards",
    "S2S.Props.C64_defined"
   ],
   "note": "Which hazards a schema has is computed by hazardsFields (Spec/Hazard.lean) from the schema alone. The theorem lists a fifth way, constraints that convert a floating-point number to an integer; in the statement these are constraints that do not fit their fields."
  },
  {
   "property": "C65",
   "status": "proved",
   "theorems": [
    "S2S.Props.C65_lookup"
   ],
   "note": ""
  },
  {
   "property": "C66",
   "status": "partial",
   "theorems": [
    "S2S.Props.C66_accepts_partial",
    "S2S.Props.C66_wellFormed_partial",
    "S2S.Props.C66_fails_empty"
   ],
   "note": "False as stated for the empty list, which is refused (std::array{} has no element type). Proved for all other lists; the exact statement is C102."
  },
  {
   "property": "C67",
   "status": "proved",
   "theorems": [
    "S2S.Props.C67_access",
    "S2S.Props.C67_hidden",
    "S2S.Props.C67_mutable",
    "S2S.Props.C67_ignored"
   ],
   "note": "Type ids of the fields are assumed distinct (C42)."
  },
  {
   "property": "C68",
   "status": "proved",
   "theorems": [
    "S2S.Props.C68_reader",
    "S2S.Props.C68_same_siblings",
    "S2S.Props.C68_same_results"
   ],
   "note": "C41 with its conditions: self-consistent schema, values that fit. SamePlace (Spec/Place) walks both structs in step."
  },
  {
   "property": "C69",
   "status": "proved",
   "theorems": [
    "S2S.Props.C69_exactly_valid",
    "S2S.Props.C69_otherwise_error"
   ],
   "note": ""
  },
  {
   "property": "C70",
   "status": "proved",
   "theorems": [
    "S2S.Props.C70_same_language",
    "S2S.Props.C70_canonical"
   ],
   "note": ""
  },
  {
   "property": "C71",
   "status": "proved",
   "theorems": [
    "S2S.Props.C71_read_between",
    "S2S.Props.C71_write_between",
    "S2S.Props.C71_too_short",
    "S2S.Props.C71_fixed_size",
    "S2S.Props.C71_write_any"
   ],
   "note": "C71_write_any is for all schemas whose lengths and discriminants resolve (what compiles, C78), self-consistent or not."
  },
  {
   "property": "C72",
   "status": "proved",
   "theorems": [
    "S2S.Props.C72_memory",
    "S2S.Props.C72_memory_success",
    "S2S.Props.C72_calls",
    "S2S.Props.C72_input",
    "S2S.Props.C72_needs_solid"
   ],
   "note": "C72_needs_solid shows that the condition on records is needed."
  },
  {
   "property": "C73",
   "status": "proved",
   "theorems": [
    "S2S.Props.C73_content",
    "S2S.Props.C73_queue",
    "S2S.Props.C73_empty",
    "S2S.Props.C73_needs_success"
   ],
   "note": "The stream is a Pipe: reads take from the front, writes append at the back. std::fstream, whose reads and writes share one position, is not one."
  },
  {
   "property": "C74",
   "status": "partial",
   "theorems": [
    "S2S.Props.C74_old_reader",
    "S2S.Props.C74_old_reader_bytes",
    "S2S.Props.C74_new_to_old_partial",
    "S2S.Props.C74_new_reader",
    "S2S.Props.C74_same_failure",
    "S2S.Props.C74_old_data_rejected",
    "S2S.Props.C74_optional_extension",
    "S2S.Props.C74_fails_narrow"
   ],
   "note": "That the shorter schema reads what the longer one writes is proved for self-consistent schemas and false without (C74_fails_narrow); C157 says exactly when it does."
  },
  {
   "property": "C75",
   "status": "proved",
   "theorems": [
    "S2S.Props.C75_engaged",
    "S2S.Props.C75_empty",
    "S2S.Props.C75_no_label",
    "S2S.Props.C75_not_writable"
   ],
   "note": "Labels are values of the discriminant's type; others are compared as converted to it (C46, C76_labels_clash)."
  },
  {
   "property": "C76",
   "status": "proved",
   "theorems": [
    "S2S.Props.C76_accepts",
    "S2S.Props.C76_good_labels",
    "S2S.Props.C76_labels_clash",
    "S2S.Props.C76_narrow_size"
   ],
   "note": "The last two show that the check is about std::size_t, not about what the reader compares: accepted labels outside the discriminant's type can clash, and on 32 bit fine labels are refused."
  },
  {
   "property": "C77",
   "status": "proved",
   "theorems": [
    "S2S.Props.C77_some",
    "S2S.Props.C77_unique",
    "S2S.Props.C77_spelled"
   ],
   "note": ""
  },
  {
   "property": "C78",
   "status": "proved",
   "theorems": [
    "S2S.Props.C78_schema",
    "S2S.Props.C78_resolves",
    "S2S.Props.C78_self_consistent"
   ],
   "note": ""
  },
  {
   "property": "C79",
   "status": "partial",
   "theorems": [
    "S2S.Props.C79_instantiates_partial",
    "S2S.Props.C79_host_partial",
    "S2S.Props.C79_obstacles",
    "S2S.Props.C79_fails_vector_bool",
    "S2S.Props.C98_fails_inside"
   ],
   "note": "False as stated: a std::vector<bool> can be written in the foreign byte order, and then not in the host's; a length inside an optional that is written may name a vector. Proved for reading, and for writing in the host's order if those lengths are integers; the last sentence without a std::vector<bool>. The exact statement is C104."
  },
  {
   "property": "C80",
   "status": "proved",
   "theorems": [
    "S2S.Props.C80_scalar",
    "S2S.Props.C80_container",
    "S2S.Props.C80_fixed",
    "S2S.Props.C80_magic_number",
    "S2S.Props.C80_magic",
    "S2S.Props.C80_maybe",
    "S2S.Props.C80_variance",
    "S2S.Props.C80_stands_for",
    "S2S.Props.C80_maybe_stands_for",
    "S2S.Props.C80_union_stands_for"
   ],
   "note": ""
  },
  {
   "property": "C81",
   "status": "proved",
   "theorems": [
    "S2S.Props.C81_foreign",
    "S2S.Props.C81_read",
    "S2S.Props.C81_write",
    "S2S.Props.C81_bits"
   ],
   "note": ""
  },
  {
   "property": "C82",
   "status": "partial",
   "theorems": [
    "S2S.Props.C82_read",
    "S2S.Props.C82_write",
    "S2S.Props.C82_old_to_new_partial",
    "S2S.Props.C82_constant_matters",
    "S2S.Props.C82_order_matters",
    "S2S.Props.C82_ceiling_matters",
    "S2S.Props.C82_fails_narrow"
   ],
   "note": "Reading needs both schemas to be well formed; writing needs the names the newer schema refers to to be fields of the right type (which is what compiles, C78). That the newer schema reads what the older one writes is proved for a self-consistent older schema and false without (C82_fails_narrow); C157 says exactly when it does."
  },
  {
   "property": "C83",
   "status": "proved",
   "theorems": [
    "S2S.Props.C83_closed",
    "S2S.Props.C83_open",
    "S2S.Props.C83_disjoint",
    "S2S.Props.C83_overlap_refused",
    "S2S.Props.C83_nested_undefined"
   ],
   "note": "The operators as written; that no object of these types can be constructed is read off the code (documented in docs/constraints.md)."
  },
  {
   "property": "C84",
   "status": "proved",
   "theorems": [
    "S2S.Props.C84_read",
    "S2S.Props.C84_read_stream",
    "S2S.Props.C84_write",
    "S2S.Props.C84_accepts",
    "S2S.Props.C84_access"
   ],
   "note": "The casts are equal as trees of calls. Acceptance and access are stated for names that are not empty: the empty name is found in every table with room (finding on C31, C66)."
  },
  {
   "property": "C85",
   "status": "partial",
   "theorems": [
    "S2S.Props.C85_of_writable_partial",
    "S2S.Props.C85_of_readable_partial",
    "S2S.Props.C85_fails_vector_bool",
    "S2S.Props.C101_fails_inside",
    "S2S.Props.C105_fails_vector",
    "S2S.Props.C105_fails_record"
   ],
   "note": "The first sentence is false as stated: a std::vector<bool> can be written in the foreign byte order and not be read, and so can a length inside an optional that names a vector; both are for lists spelled by hand (C105). Proved without either, and with sizes as the descriptors give them. The exact statement is C165."
  },
  {
   "property": "C86",
   "status": "proved",
   "theorems": [
    "S2S.Props.C86_same",
    "S2S.Props.C86_bounded",
    "S2S.Props.C86_success",
    "S2S.Props.C86_linear",
    "S2S.Props.C86_depth"
   ],
   "note": "Counted are bytes in std::vector and std::string. C86_same ties the reader with copies to the reader all other properties are about. Copies made by user callables are not counted."
  },
  {
   "property": "C87",
   "status": "proved",
   "theorems": [
    "S2S.Props.C87_any_allocator",
    "S2S.Props.C87_needed",
    "S2S.Props.C87_enough"
   ],
   "note": "Memory in containers is counted as in C86."
  },
  {
   "property": "C88",
   "status": "proved",
   "theorems": [
    "S2S.Props.C88_equality",
    "S2S.Props.C88_order",
    "S2S.Props.C88_gte",
    "S2S.Props.C88_any_of",
    "S2S.Props.C88_int",
    "S2S.Props.C88_int_any",
    "S2S.Props.C88_int_array"
   ],
   "note": "structural and relational properties of C++ types are part of the model (Model/Compare)"
  },
  {
   "property": "C89",
   "status": "proved",
   "theorems": [
    "S2S.Props.C89_number",
    "S2S.Props.C89_defined",
    "S2S.Props.C89_meaning",
    "S2S.Props.C89_any_of",
    "S2S.Props.C89_nan",
    "S2S.Props.C89_lt_bits",
    "S2S.Props.C89_lte_bits",
    "S2S.Props.C89_read"
   ],
   "note": "IEEE 754 decoding is part of the model; for conversions that round see C106."
  },
  {
   "property": "C90",
   "status": "proved",
   "theorems": [
    "S2S.Props.C90_meaning",
    "S2S.Props.C90_total",
    "S2S.Props.C90_nan",
    "S2S.Props.C90_bytes",
    "S2S.Props.C90_read"
   ],
   "note": ""
  },
  {
   "property": "C91",
   "status": "proved",
   "theorems": [
    "S2S.Props.C91_meaning",
    "S2S.Props.C91_undefined",
    "S2S.Props.C91_nan",
    "S2S.Props.C91_eq",
    "S2S.Props.C91_bool",
    "S2S.Props.C91_rewrites",
    "S2S.Props.C91_reads_nan"
   ],
   "note": ""
  },
  {
   "property": "C92",
   "status": "proved",
   "theorems": [
    "S2S.Props.C92_read_is_dialogue",
    "S2S.Props.C92_dialogue_says",
    "S2S.Props.C92_dialogue_reads"
   ],
   "note": "worlds: any state, any stream behaviour, exceptions; a call that does not return counts as one that throws"
  },
  {
   "property": "C93",
   "status": "proved",
   "theorems": [
    "S2S.Props.C93_steady_read",
    "S2S.Props.C93_steady_write",
    "S2S.Props.C93_steady_function",
    "S2S.Props.C93_own",
    "S2S.Props.C93_calm"
   ],
   "note": "std::length_error out of resize is `stuck`, see C14 and C87"
  },
  {
   "property": "C94",
   "status": "proved",
   "theorems": [
    "S2S.Props.C94_broken_off",
    "S2S.Props.C94_bytes"
   ],
   "note": ""
  },
  {
   "property": "C95",
   "status": "proved",
   "theorems": [
    "S2S.Props.C95_one_string",
    "S2S.Props.C95_same_as_function",
    "S2S.Props.C95_unsteady_malformed"
   ],
   "note": ""
  },
  {
   "property": "C96",
   "status": "proved",
   "theorems": [
    "S2S.Props.C96_round_trip"
   ],
   "note": ""
  },
  {
   "property": "C97",
   "status": "proved",
   "theorems": [
    "S2S.Props.C97_write_asks",
    "S2S.Props.C97_broken_off"
   ],
   "note": ""
  },
  {
   "property": "C98",
   "status": "partial",
   "theorems": [
    "S2S.Props.C98_spelled_partial",
    "S2S.Props.C98_foreign_partial",
    "S2S.Props.C98_by_hand",
    "S2S.Props.C98_fails_inside",
    "S2S.Props.C103_fails_array"
   ],
   "note": "False as stated for writing: inside an optional or a union a length may name a vector, say; and for reading lists spelled by hand, where a record or an array of records can be given a length from anything. Proved for reading without those, and for writing if those lengths are integers. The exact statements are C103 and C165."
  },
  {
   "property": "C99",
   "status": "partial",
   "theorems": [
    "S2S.Props.C99_instantiates_partial",
    "S2S.Props.C99_none",
    "S2S.Props.C99_host",
    "S2S.Props.C99_obstacles",
    "S2S.Props.C98_fails_inside"
   ],
   "note": "False as stated for writing: inside an optional or a union a length may name a vector, say (C98_fails_inside). Proved for reading, and for writing if those lengths are integers; all but the first sentence in full. The exact statement is C104."
  },
  {
   "property": "C100",
   "status": "proved",
   "theorems": [
    "S2S.Props.C100_constexpr",
    "S2S.Props.C100_run_time"
   ],
   "note": "Both are equivalences."
  },
  {
   "property": "C101",
   "status": "partial",
   "theorems": [
    "S2S.Props.C101_of_writable_partial",
    "S2S.Props.C101_of_readable_partial",
    "S2S.Props.C101_fails_inside",
    "S2S.Props.C105_fails_vector",
    "S2S.Props.C105_fails_record"
   ],
   "note": "The first sentence is false as stated: inside an optional or a union that is written a length may name a vector, say; both are for lists spelled by hand (C105). Proved if those lengths are numbers, and with sizes as the descriptors give them. The exact statement is C165."
  },
  {
   "property": "C102",
   "status": "proved",
   "theorems": [
    "S2S.Props.C102_accepts",
    "S2S.Props.C102_wellFormed"
   ],
   "note": ""
  },
  {
   "property": "C103",
   "status": "partial",
   "theorems": [
    "S2S.Props.C103_read_partial",
    "S2S.Props.C103_write",
    "S2S.Props.C103_write_inside",
    "S2S.Props.C98_fails_inside",
    "S2S.Props.C103_fails_array"
   ],
   "note": "False as stated of lists spelled by hand that are read: records and arrays of records can be given a length from anything, as nobody takes it. Proved for lists spelled with the descriptors, and in the foreign byte order for those that do not do this; the rest in full. C98_fails_inside is the last sentence. The exact statement is C165_lengths."
  },
  {
   "property": "C104",
   "status": "proved",
   "theorems": [
    "S2S.Props.C104_instantiates"
   ],
   "note": ""
  },
  {
   "property": "C105",
   "status": "partial",
   "theorems": [
    "S2S.Props.C105_of_writable_partial",
    "S2S.Props.C105_of_readable_partial",
    "S2S.Props.C105_fails_vector",
    "S2S.Props.C105_fails_record"
   ],
   "note": "False as stated of lists spelled by hand: a vector of records without a length can be written and not read, a record that is given a length can be read and not written. Proved, as equivalences, for lists whose records and arrays of records take no length from a field and whose vectors of records have one, as the descriptors make them. The exact statement is C165."
  },
  {
   "property": "C106",
   "status": "proved",
   "theorems": [
    "S2S.Props.C106_meaning",
    "S2S.Props.C106_sound",
    "S2S.Props.C106_complete",
    "S2S.Props.C106_exact",
    "S2S.Props.C106_digits",
    "S2S.Props.C106_nearest",
    "S2S.Props.C106_refuses",
    "S2S.Props.C106_ieee"
   ],
   "note": "Rounding is a parameter of the model with what C++ says about it; C106_nearest: IEEE 754 rounding is an instance and goes to a nearest number."
  },
  {
   "property": "C107",
   "status": "proved",
   "theorems": [
    "S2S.Props.C107_typed",
    "S2S.Props.C107_defined",
    "S2S.Props.C107_inside",
    "S2S.Props.C107_kept",
    "S2S.Props.C107_fails_empty_name"
   ],
   "note": "Made (Spec/Made.lean) is the inductive set of structs a program can hold; moved-from and valueless objects are not modelled."
  },
  {
   "property": "C108",
   "status": "proved",
   "theorems": [
    "S2S.Props.C108_reach",
    "S2S.Props.C108_writes",
    "S2S.Props.C108_messages",
    "S2S.Props.C108_fails_stale"
   ],
   "note": ""
  },
  {
   "property": "C109",
   "status": "proved",
   "theorems": [
    "S2S.Props.C109_header",
    "S2S.Props.C109_runs",
    "S2S.Props.C109_fails_cycle",
    "S2S.Props.C109_fails_extension",
    "S2S.Props.C109_order_differs",
    "S2S.Props.C109_keyword",
    "S2S.Props.C109_word",
    "S2S.Props.C109_space"
   ],
   "note": "The file system is a parameter (resolve); \\w is taken to be ASCII."
  },
  {
   "property": "C110",
   "status": "proved",
   "theorems": [
    "S2S.Props.C110_deterministic"
   ],
   "note": "Where the directory is and how it is listed are an injective map of paths and a permutation; sets are lists of which only membership is used, sorted before they are written."
  },
  {
   "property": "C111",
   "status": "proved",
   "theorems": [
    "S2S.Props.C111_selfContained",
    "S2S.Props.C111_fails_comment"
   ],
   "note": ""
  },
  {
   "property": "C112",
   "status": "proved",
   "theorems": [
    "S2S.Props.C112_shown",
    "S2S.Props.C112_hello",
    "S2S.Props.C112_log",
    "S2S.Props.C112_gzip",
    "S2S.Props.C112_tlv",
    "S2S.Props.C112_wav",
    "S2S.Props.C112_firmware",
    "S2S.Props.C112_tagged",
    "S2S.Props.C112_tile",
    "S2S.Props.C112_telemetry",
    "S2S.Props.C112_extent",
    "S2S.Props.C112_partition",
    "S2S.Props.C112_bmp",
    "S2S.Props.C112_heartbeat",
    "S2S.Props.C112_fails_overflow",
    "S2S.Props.C112_fails_shipped"
   ],
   "note": "The C++ declarations are transcribed by hand into Shown; the conditions of C45, C46, C49, C50 and C64 are evaluated by the kernel for the sixteen platforms there are, which with the general theorems gives the statement for all inputs."
  },
  {
   "property": "C113",
   "status": "proved",
   "theorems": [
    "S2S.Props.C113_pointer",
    "S2S.Props.C113_array",
    "S2S.Props.C113_reads_iff",
    "S2S.Props.C113_writes_iff",
    "S2S.Props.C113_room",
    "S2S.Props.C113_fails_both",
    "S2S.Props.C113_fails_unseen",
    "S2S.Props.C113_fails_order"
   ],
   "note": "Stream types are modelled by what the concepts and the two overloads look at; C++ overload resolution is taken to be: two viable candidates neither of which is more constrained are ambiguous."
  },
  {
   "property": "C114",
   "status": "proved",
   "theorems": [
    "S2S.Props.C114_iff",
    "S2S.Props.C114_read",
    "S2S.Props.C114_write",
    "S2S.Props.C114_fails_wrapper"
   ],
   "note": "The object read into is taken to be value-initialised, as the readers leave it."
  },
  {
   "property": "C115",
   "status": "proved",
   "theorems": [
    "S2S.Props.C115_sends",
    "S2S.Props.C115_one"
   ],
   "note": "Sent (Spec/Sent) is defined by recursion over the schema from the values alone. Constants are required to be values of their fields' types (TypedConsts), as in C++."
  },
  {
   "property": "C116",
   "status": "proved",
   "theorems": [
    "S2S.Props.C116_round_trip_iff",
    "S2S.Props.C116_otherwise",
    "S2S.Props.C116_schema_iff",
    "S2S.Props.C116_sequences_iff"
   ],
   "note": "Constants are values of their fields' types (`TypedConsts`), as in C115."
  },
  {
   "property": "C117",
   "status": "proved",
   "theorems": [
    "S2S.Props.C117_rewrite_iff",
    "S2S.Props.C117_same",
    "S2S.Props.C117_schema_iff"
   ],
   "note": "The encodings rather than the structs are compared: big endian narrow slots that differ can have the same bytes. Constants are values of their fields' types (`TypedConsts`), as in C115."
  },
  {
   "property": "C118",
   "status": "proved",
   "theorems": [
    "S2S.Props.C118_refused_iff",
    "S2S.Props.C118_streams",
    "S2S.Props.C118_nested",
    "S2S.Props.C118_three_ways",
    "S2S.Props.C118_one_way"
   ],
   "note": "Refused (Spec/Refused) is defined by recursion over the schema from the bytes and the wire format alone."
  },
  {
   "property": "C119",
   "status": "proved",
   "theorems": [
    "S2S.Props.C119_unsent_iff",
    "S2S.Props.C119_streams",
    "S2S.Props.C119_on_every_stream",
    "S2S.Props.C119_three_ways",
    "S2S.Props.C119_one_way",
    "S2S.Props.C119_sent_or_not",
    "S2S.Props.C119_nested"
   ],
   "note": "Unsent (Spec/Unsent) is defined by recursion over the schema from the schema and the values alone."
  },
  {
   "property": "C120",
   "status": "proved",
   "theorems": [
    "S2S.Props.C120_exhausted_iff",
    "S2S.Props.C120_overflow_exhausts",
    "S2S.Props.C120_ok_iff",
    "S2S.Props.C120_enough",
    "S2S.Props.C120_error_iff",
    "S2S.Props.C120_fault_or_room",
    "S2S.Props.C120_three_ways",
    "S2S.Props.C120_memstream"
   ],
   "note": "Overflows (Spec/Room) is defined from the schema, the values and the room; C120_overflow_exhausts and the two other equivalences hold without the conditions of C50."
  },
  {
   "property": "C121",
   "status": "proved",
   "theorems": [
    "S2S.Props.C121_vector",
    "S2S.Props.C121_find",
    "S2S.Props.C121_find_forever",
    "S2S.Props.C121_equal",
    "S2S.Props.C121_sort",
    "S2S.Props.C121_set",
    "S2S.Props.C121_map",
    "S2S.Props.C121_tables",
    "S2S.Props.C121_unique_ids",
    "S2S.Props.C121_lookup",
    "S2S.Props.C121_types",
    "S2S.Props.C121_names",
    "S2S.Props.C121_fails_comparisons"
   ],
   "note": "C121_fails_comparisons is finding 56, about two comparisons the library does not use and the statement does not claim."
  },
  {
   "property": "C122",
   "status": "proved",
   "theorems": [
    "S2S.Props.C122_never_sent",
    "S2S.Props.C122_never_read",
    "S2S.Props.C122_chosen",
    "S2S.Props.C122_switch_undefined"
   ],
   "note": "A variant without a value is var i with i no alternative. For switch unions the model has the union itself stuck where the code would write nothing; C122_switch_undefined shows that the slot before it is never passed."
  },
  {
   "property": "C123",
   "status": "proved",
   "theorems": [
    "S2S.Props.C123_valid_iff",
    "S2S.Props.C123_reads",
    "S2S.Props.C123_otherwise",
    "S2S.Props.C123_agree",
    "S2S.Props.C123_written",
    "S2S.Props.C123_passed_on",
    "S2S.Props.C123_fails_wide",
    "S2S.Props.C123_fails_sizeof"
   ],
   "note": "Field types are taken to have the same size on both platforms, callables to compute the same. C123_fails_wide and C123_fails_sizeof show that the condition on lengths and the exception for ceilings are needed. `Rewritable` is what the statement calls lists that can write what they read (C49)."
  },
  {
   "property": "C124",
   "status": "proved",
   "theorems": [
    "S2S.Props.C124_same_structs",
    "S2S.Props.C124_transcode",
    "S2S.Props.C124_injective",
    "S2S.Props.C124_exactly",
    "S2S.Props.C124_fails_narrow"
   ],
   "note": "C124_fails_narrow is the witness that full widths are needed. `Rewritable` is what the statement says of structs that can be written again (C49)."
  },
  {
   "property": "C125",
   "status": "proved",
   "theorems": [
    "S2S.Props.C125_exhausted",
    "S2S.Props.C125_replaced",
    "S2S.Props.C125_field",
    "S2S.Props.C125_confined",
    "S2S.Props.C125_defined",
    "S2S.Props.C125_fails_seen",
    "S2S.Props.C125_fails_flexible"
   ],
   "note": "C125_fails_seen and C125_fails_flexible show that each of the two conditions is needed."
  },
  {
   "property": "C126",
   "status": "partial",
   "theorems": [
    "S2S.Props.C126_kept_partial",
    "S2S.Props.C126_rechecked_partial",
    "S2S.Props.C126_replaced",
    "S2S.Props.C126_refilled",
    "S2S.Props.C126_fails_shared",
    "S2S.Props.C126_fails_seen",
    "S2S.Props.C126_fails_wide"
   ],
   "note": "C126_fails_shared and C126_fails_seen show that the conditions on who looks at the slot and at the field are needed. Partial: that the write succeeds exactly if the fields are valid, and what it then emits, is proved for new values that fit the widths and ceilings of their fields, and false without (C126_fails_wide). C160 has what is sent for all values."
  },
  {
   "property": "C127",
   "status": "partial",
   "theorems": [
    "S2S.Props.C127_switch",
    "S2S.Props.C127_whole",
    "S2S.Props.C127_never",
    "S2S.Props.C127_read_back_iff_partial",
    "S2S.Props.C127_read_back_partial",
    "S2S.Props.C127_stored",
    "S2S.Props.C127_fails_half",
    "S2S.Props.C127_fails_rounding",
    "S2S.Props.C127_fails_narrow"
   ],
   "note": "C127_fails_half and C127_fails_rounding show that whole labels and comparisons that do not round are needed. Partial: that what was written is read back is proved for self-consistent, rewritable schemas and false without (C127_fails_narrow). C158 has the exact conditions."
  },
  {
   "property": "C128",
   "status": "proved",
   "theorems": [
    "S2S.Props.C128_read",
    "S2S.Props.C128_write",
    "S2S.Props.C128_switch",
    "S2S.Props.C128_selects",
    "S2S.Props.C128_fails_constant",
    "S2S.Props.C128_fails_labels"
   ],
   "note": "C128_fails_constant and C128_fails_labels show that writing depends on constants and labels. How often callables are called is not part of it (C92, C97)."
  },
  {
   "property": "C129",
   "status": "proved",
   "theorems": [
    "S2S.Props.C129_problems",
    "S2S.Props.C129_passes",
    "S2S.Props.C129_no_nav",
    "S2S.Props.C129_uncommented",
    "S2S.Props.C129_fails_comment",
    "S2S.Props.C129_fails_untitled"
   ],
   "note": "The two _fails_ theorems are entries in the sense of MkDocs that the script treats otherwise: a commented one counts, one without a title does not (finding 60)."
  },
  {
   "property": "C130",
   "status": "proved",
   "theorems": [
    "S2S.Props.C130_blocks",
    "S2S.Props.C130_reported",
    "S2S.Props.C130_passes",
    "S2S.Props.C130_difference",
    "S2S.Props.C130_fails_swapped",
    "S2S.Props.C130_fails_unseen",
    "S2S.Props.C130_fails_words"
   ],
   "note": "The _fails_ theorems show what the script lets pass against its description (finding 61)."
  },
  {
   "property": "C131",
   "status": "proved",
   "theorems": [
    "S2S.Props.C131_accepts",
    "S2S.Props.C131_integers",
    "S2S.Props.C131_unambiguous",
    "S2S.Props.C131_selects",
    "S2S.Props.C131_stored",
    "S2S.Props.C131_fails_fraction",
    "S2S.Props.C131_fails_negative",
    "S2S.Props.C131_fails_rounding"
   ],
   "note": "The _fails_ theorems are the labels for which the conversion and the comparison disagree (finding 62)."
  },
  {
   "property": "C132",
   "status": "partial",
   "theorems": [
    "S2S.Props.C132_bytes",
    "S2S.Props.C132_valid",
    "S2S.Props.C132_read",
    "S2S.Props.C132_write_partial",
    "S2S.Props.C132_fails_seen",
    "S2S.Props.C132_fails_wide"
   ],
   "note": "C132_fails_seen: why places seen by a sibling are left out. Partial: writing is proved for schemas that are also rewritable and parts that fit the widths and ceilings of their fields, and false without (C132_fails_wide). C159 has the exact conditions for all schemas and parts."
  },
  {
   "property": "C133",
   "status": "proved",
   "theorems": [
    "S2S.Props.C133_read",
    "S2S.Props.C133_write"
   ],
   "note": "Equality of the programs of calls, so it holds on every stream."
  },
  {
   "property": "C134",
   "status": "proved",
   "theorems": [
    "S2S.Props.C134_read",
    "S2S.Props.C134_write",
    "S2S.Props.C134_fails_seen"
   ],
   "note": "C134_fails_seen: a record that takes the name of one of its fields, to which a later field refers."
  },
  {
   "property": "C135",
   "status": "proved",
   "theorems": [
    "S2S.Props.C135_usual",
    "S2S.Props.C135_read",
    "S2S.Props.C135_short",
    "S2S.Props.C135_beyond",
    "S2S.Props.C135_write",
    "S2S.Props.C135_round",
    "S2S.Props.C135_unterminated",
    "S2S.Props.C135_fails_foreign"
   ],
   "note": "C135_fails_foreign is the last sentence: the witness."
  },
  {
   "property": "C136",
   "status": "proved",
   "theorems": [
    "S2S.Props.C136_accepted",
    "S2S.Props.C136_read",
    "S2S.Props.C136_write",
    "S2S.Props.C136_written",
    "S2S.Props.C136_fails"
   ],
   "note": "C136_fails is where writing is defined (C50); C136_written covers success in every order."
  },
  {
   "property": "C137",
   "status": "proved",
   "theorems": [
    "S2S.Props.C137_read",
    "S2S.Props.C137_write",
    "S2S.Props.C137_instead",
    "S2S.Props.C137_instead_write"
   ],
   "note": "Exceptions thrown by the stream only; allocation failure and exceptions from user predicates are not part of this claim."
  },
  {
   "property": "C138",
   "status": "proved",
   "theorems": [
    "S2S.Props.C138_pick",
    "S2S.Props.C138_fixed",
    "S2S.Props.C138_trailer",
    "S2S.Props.C138_patch",
    "S2S.Props.C138_fails"
   ],
   "note": ""
  },
  {
   "property": "C139",
   "status": "proved",
   "theorems": [
    "S2S.Props.C139_read",
    "S2S.Props.C139_write",
    "S2S.Props.C139_round",
    "S2S.Props.C139_fails_foreign"
   ],
   "note": "Fields spelled by hand at the top level of the list; inside nested records, and hand-spelled fields of variable size, are not covered. Constants are values of their fields' types (`TypedConsts`), as in C115."
  },
  {
   "property": "C140",
   "status": "proved",
   "theorems": [
    "S2S.Props.C140_read",
    "S2S.Props.C140_valid",
    "S2S.Props.C140_write"
   ],
   "note": "The union is the last field and has no constraint of its own, its alternatives have none either. `Rewritable` is what the statement calls lists that can be rewritten (C49)."
  },
  {
   "property": "C141",
   "status": "proved",
   "theorems": [
    "S2S.Props.C141_pieces",
    "S2S.Props.C141_structs",
    "S2S.Props.C141_kept",
    "S2S.Props.C141_ends",
    "S2S.Props.C141_arrive"
   ],
   "note": "The casts are those from a buffer of bytes; the program around them is Spec/Pieces. The last sentence takes that the structs are of at least a byte."
  },
  {
   "property": "C142",
   "status": "proved",
   "theorems": [
    "S2S.Props.C142_field",
    "S2S.Props.C142_maybe",
    "S2S.Props.C142_case",
    "S2S.Props.C142_in_bounds",
    "S2S.Props.C142_magic"
   ],
   "note": "Fields spelled by hand as field<...> are not covered; see C98, C135, C139."
  },
  {
   "property": "C143",
   "status": "partial",
   "theorems": [
    "S2S.Props.C143_read",
    "S2S.Props.C143_valid",
    "S2S.Props.C143_write_partial",
    "S2S.Props.C143_fails_narrow"
   ],
   "note": "The container is the last field of the list and has no constraint of its own. Partial: that the two ways of writing write the same is proved for rewritable lists and false without (C143_fails_narrow). C158 has the exact conditions."
  },
  {
   "property": "C144",
   "status": "proved",
   "theorems": [
    "S2S.Props.C144_check",
    "S2S.Props.C144_read",
    "S2S.Props.C144_write"
   ],
   "note": "A field under eq is written without a look at what is stored: C19, C55."
  },
  {
   "property": "C145",
   "status": "partial",
   "theorems": [
    "S2S.Props.C145_read",
    "S2S.Props.C145_write_host",
    "S2S.Props.C145_write_foreign_partial",
    "S2S.Props.C145_no_return_partial",
    "S2S.Props.C145_round_trip_partial",
    "S2S.Props.C145_fails_narrow"
   ],
   "note": "Finding 64. Such fields have no constraint and are not read by callables. Partial: what is written is proved for rewritable lists; without, it is not always read back in the order of the host (C145_fails_narrow). C158 has the exact conditions."
  },
  {
   "property": "C146",
   "status": "partial",
   "theorems": [
    "S2S.Props.C146_read",
    "S2S.Props.C146_write_partial",
    "S2S.Props.C146_filled_partial",
    "S2S.Props.C146_fails_constant",
    "S2S.Props.C146_fails_wide"
   ],
   "note": "C146_fails_constant: with a constant for a length each of the two accepts a struct the other refuses, and the one that asks emits what cannot be read. Partial: writing is proved for values that fit the widths and ceilings of their fields, and false without (C146_fails_wide). C161 is the claim for values that fit."
  },
  {
   "property": "C147",
   "status": "proved",
   "theorems": [
    "S2S.Props.C147_read",
    "S2S.Props.C147_same",
    "S2S.Props.C147_write",
    "S2S.Props.C147_wellformed",
    "S2S.Props.C147_fails_error"
   ],
   "note": "C147_fails_error: a vector engaged against its predicate is refused as an optional by itself, as a union by its length field, before the first byte. The compiler's demand that the alternatives of a union be distinct (an optional that itself is the array of no bytes) is not part of the statement."
  },
  {
   "property": "C148",
   "status": "partial",
   "theorems": [
    "S2S.Props.C148_read",
    "S2S.Props.C148_write",
    "S2S.Props.C148_back_partial",
    "S2S.Props.C148_round_partial",
    "S2S.Props.C148_fails_read",
    "S2S.Props.C148_fails_narrow"
   ],
   "note": "C148_fails_read: 200 is read as an optional percentage of at most 100, and not written. Partial: that what was written is read back is proved for self-consistent lists and false without (C148_fails_narrow); rewriting is proved for rewritable ones. C158 has the exact conditions."
  },
  {
   "property": "C149",
   "status": "proved",
   "theorems": [
    "S2S.Props.C149_read",
    "S2S.Props.C149_write",
    "S2S.Props.C149_stream",
    "S2S.Props.C149_wellformed",
    "S2S.Props.C149_index",
    "S2S.Props.C149_fails_checked"
   ],
   "note": "C149_fails_checked: with a constraint over the array of arrays the flat one is refused, hence the condition."
  },
  {
   "property": "C150",
   "status": "proved",
   "theorems": [
    "S2S.Props.C150_read",
    "S2S.Props.C150_write",
    "S2S.Props.C150_deep",
    "S2S.Props.C150_trans",
    "S2S.Props.C150_flat",
    "S2S.Props.C150_unions",
    "S2S.Props.C150_renamed"
   ],
   "note": "Vectors of records are bounded by the size of their records in memory, which is taken to be the same for both lists."
  },
  {
   "property": "C151",
   "status": "proved",
   "theorems": [
    "S2S.Props.C151_read",
    "S2S.Props.C151_write",
    "S2S.Props.C151_round",
    "S2S.Props.C151_descriptors",
    "S2S.Props.C151_fails_guard",
    "S2S.Props.C151_fails_foreign"
   ],
   "note": "Elements without elements are given by the bytes of their storage; a constraint on a container of them would be a function of those bytes. Constants are values of their fields' types (`TypedConsts`), as in C115."
  },
  {
   "property": "C152",
   "status": "proved",
   "theorems": [
    "S2S.Props.C152_read",
    "S2S.Props.C152_member",
    "S2S.Props.C152_write",
    "S2S.Props.C152_optional",
    "S2S.Props.C152_alternative",
    "S2S.Props.C152_cast",
    "S2S.Props.C152_fails_looked",
    "S2S.Props.C152_fails_foreign",
    "S2S.Props.C152_fails_width"
   ],
   "note": "At any depth by C150, of whose replacements these are now some. A fixed string and an array of characters are read the same in the foreign order too; only the writing differs there."
  },
  {
   "property": "C153",
   "status": "partial",
   "theorems": [
    "S2S.Props.C153_read",
    "S2S.Props.C153_write",
    "S2S.Props.C153_full",
    "S2S.Props.C153_round_partial",
    "S2S.Props.C153_says_partial",
    "S2S.Props.C153_rewrite_partial",
    "S2S.Props.C153_fails_count",
    "S2S.Props.C153_fails_refused",
    "S2S.Props.C153_fails_computed",
    "S2S.Props.C153_fails_narrow"
   ],
   "note": "Only fields spelled by hand are such: the descriptor of an array of records has no length. Model/Counted is a model of its own; fields of fixed size and optionals spelled by hand (Model/Spelled) are not in the same lists with them. Partial: that what was written is read back and says how many records there are is proved for self-consistent lists and false without (C153_fails_narrow); rewriting is proved for rewritable ones. C158 has the exact conditions."
  },
  {
   "property": "C154",
   "status": "proved",
   "theorems": [
    "S2S.Props.C154_eq",
    "S2S.Props.C154_read",
    "S2S.Props.C154_write",
    "S2S.Props.C154_refuses",
    "S2S.Props.C154_fails_stale",
    "S2S.Props.C154_fails_ceiling",
    "S2S.Props.C154_fails_constexpr",
    "S2S.Props.C154_fails_narrow"
   ],
   "note": "Members of one list; vectors in optionals and unions are not covered."
  },
  {
   "property": "C155",
   "status": "proved",
   "theorems": [
    "S2S.Props.C155_at_the_door",
    "S2S.Props.C155_inside",
    "S2S.Props.C155_negative"
   ],
   "note": "Schemas satisfy `WellFormed`; element sizes are positive."
  },
  {
   "property": "C156",
   "status": "proved",
   "theorems": [
    "S2S.Props.C156_accepted",
    "S2S.Props.C156_reader",
    "S2S.Props.C156_read_iff",
    "S2S.Props.C156_write_iff",
    "S2S.Props.C156_unsent_iff",
    "S2S.Props.C156_round_trip_iff",
    "S2S.Props.C156_wellFormed",
    "S2S.Props.C156_fails_lost",
    "S2S.Props.C156_fails_unwritable"
   ],
   "note": "Structs written are as C++ types them (`Typed`), constants of their fields' types (`TypedConsts`)."
  },
  {
   "property": "C157",
   "status": "proved",
   "theorems": [
    "S2S.Props.C157_appended",
    "S2S.Props.C157_appended_own",
    "S2S.Props.C157_loosened"
   ],
   "note": "`Sent` (C115) is the struct sent; constants are of their fields' types (`TypedConsts`)."
  },
  {
   "property": "C158",
   "status": "proved",
   "theorems": [
    "S2S.Props.C158_guarded",
    "S2S.Props.C158_guarded_back",
    "S2S.Props.C158_counted",
    "S2S.Props.C158_counted_back",
    "S2S.Props.C158_labels",
    "S2S.Props.C158_labels_pick",
    "S2S.Props.C158_vacant_host",
    "S2S.Props.C158_vacant_foreign",
    "S2S.Props.C158_vacant_no_return",
    "S2S.Props.C158_records_sent",
    "S2S.Props.C158_records"
   ],
   "note": "`Sent` (C115) is the struct sent; constants are of their fields' types (`TypedConsts`), stored labels of the type of the field they are compared with."
  },
  {
   "property": "C159",
   "status": "proved",
   "theorems": [
    "S2S.Props.C159_sent",
    "S2S.Props.C159_write",
    "S2S.Props.C159_back"
   ],
   "note": "Constants are values of their fields' types (`TypedConsts`), as in C115. `Sent` (C115) is the struct sent."
  },
  {
   "property": "C160",
   "status": "proved",
   "theorems": [
    "S2S.Props.C160_sent",
    "S2S.Props.C160_write",
    "S2S.Props.C160_alone",
    "S2S.Props.C160_near"
   ],
   "note": "Constants are values of their fields' types (`TypedConsts`), as in C115. C160_near: the fields that are looked at by fields assigned to are indeed looked at again."
  },
  {
   "property": "C161",
   "status": "proved",
   "theorems": [
    "S2S.Props.C161_write",
    "S2S.Props.C161_filled",
    "S2S.Props.C146_fails_wide"
   ],
   "note": "`Storable` is what the statement calls values that fit. Reading the two schemas is one program for all of them (C146_read)."
  },
  {
   "property": "C162",
   "status": "proved",
   "theorems": [
    "S2S.Props.C162_read",
    "S2S.Props.C162_errors",
    "S2S.Props.C162_undefined",
    "S2S.Props.C162_lengths",
    "S2S.Props.C162_write",
    "S2S.Props.C162_refused",
    "S2S.Props.C162_too_many",
    "S2S.Props.C162_sizes",
    "S2S.Props.C162_round",
    "S2S.Props.C162_computed",
    "S2S.Props.C162_converts",
    "S2S.Props.C162_fails_narrow"
   ],
   "note": "The numbers are fields of the list itself and so are the containers (vectors of numbers and of records); lists inside records have integer lengths. C162_round is for lists that are self-consistent with their lengths computed (C45) and values that fit (`Storable`). C162_converts: the conversion that the statements on writing take exists for every rounding."
  },
  {
   "property": "C163",
   "status": "proved",
   "theorems": [
    "S2S.Props.C163_read",
    "S2S.Props.C163_bytes",
    "S2S.Props.C163_chosen",
    "S2S.Props.C163_write",
    "S2S.Props.C163_refused",
    "S2S.Props.C163_round",
    "S2S.Props.C163_labels",
    "S2S.Props.C163_tells",
    "S2S.Props.C163_lost",
    "S2S.Props.C163_fails_rounded",
    "S2S.Props.C163_fails_sign",
    "S2S.Props.C163_fails_negative"
   ],
   "note": "The numbers are fields of the list itself and so are the unions; labels that are floating-point numbers themselves and optionals of such numbers are not covered. C163_round is for lists that are self-consistent with the predicates in place of the labels (C45) and values that fit (`Storable`). C163_tells and C163_lost are the converse."
  },
  {
   "property": "C164",
   "status": "proved",
   "theorems": [
    "S2S.Props.C164_read",
    "S2S.Props.C164_errors",
    "S2S.Props.C164_undefined",
    "S2S.Props.C164_write",
    "S2S.Props.C164_refused",
    "S2S.Props.C164_iff",
    "S2S.Props.C164_unwritable",
    "S2S.Props.C164_contradicting",
    "S2S.Props.C164_round",
    "S2S.Props.C164_computed",
    "S2S.Props.C164_fails_again"
   ],
   "note": "The numbers and the optionals are fields of the list itself. Lists in which a number is the length of an optional and of another container, or of an alternative of a union, are not covered. C164_round is for lists that are self-consistent with the computed lengths (C45) and values that fit (`Storable`)."
  },
  {
   "property": "C165",
   "status": "proved",
   "theorems": [
    "S2S.Props.C165_of_writable",
    "S2S.Props.C165_of_readable",
    "S2S.Props.C165_spelled",
    "S2S.Props.C165_lengths"
   ],
   "note": "The first two are equivalences."
  },
  {
   "property": "C166",
   "status": "proved",
   "theorems": [
    "S2S.Props.C166_read",
    "S2S.Props.C166_write",
    "S2S.Props.C166_one",
    "S2S.Props.C166_round",
    "S2S.Props.C166_rewrite",
    "S2S.Props.C166_full",
    "S2S.Props.C166_rewrite_plain",
    "S2S.Props.C166_unwritable",
    "S2S.Props.C166_fails_bounds"
   ],
   "note": "The sizes of Model/Spelled are not in the same lists; those of Model/Counted are. C166_fails_bounds is the last sentence. Which of these lists compile: C165."
  },
  {
   "property": "C167",
   "status": "proved",
   "theorems": [
    "S2S.Props.C167_lens",
    "S2S.Props.C167_lens_back",
    "S2S.Props.C167_opts",
    "S2S.Props.C167_opts_back",
    "S2S.Props.C167_tags",
    "S2S.Props.C167_tags_back",
    "S2S.Props.C167_sized",
    "S2S.Props.C167_sized_back"
   ],
   "note": "As C158. `Sent` is Spec/Sent (C115)."
  }
 ]
}