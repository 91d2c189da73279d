import Verif.Props.Reading
import Verif.Props.Errors
import Verif.Props.Limits
import Verif.Props.RoundTrip
import Verif.Props.Rewrite
import Verif.Props.Slots
import Verif.Props.Sent
import Verif.Props.Refused
import Verif.Props.Unsent
import Verif.Props.Room
import Verif.Props.Containers
import Verif.Props.Hollow
import Verif.Props.Platform
import Verif.Props.Transcode
import Verif.Props.Damage
import Verif.Props.Edit
import Verif.Props.Labels
import Verif.Props.Alike
import Verif.Props.Nav
import Verif.Props.DocCheck
import Verif.Props.LabelSets
import Verif.Props.Part
import Verif.Props.Group
import Verif.Props.Hand
import Verif.Props.Reorder
import Verif.Props.Throw
import Verif.Props.Offsets
import Verif.Props.HandList
import Verif.Props.Envelope
import Verif.Props.Pieces
import Verif.Props.Bounds
import Verif.Props.Records
import Verif.Props.Strings
import Verif.Props.Vacant
import Verif.Props.Asked
import Verif.Props.Either
import Verif.Props.Guarded
import Verif.Props.Flat
import Verif.Props.Inside
import Verif.Props.Leaf
import Verif.Props.Counted
import Verif.Props.Pinned
import Verif.Props.Ceilings
import Verif.Props.Own
import Verif.Props.Versions
import Verif.Props.Trips
import Verif.Props.PartSent
import Verif.Props.FloatLen
import Verif.Props.FloatTag
import Verif.Props.FloatOpt
import Verif.Props.Again
import Verif.Props.Spelled
import Verif.Props.Checks
import Verif.Props.Unions
import Verif.Props.Prefix
import Verif.Props.Streams
import Verif.Props.StreamTypes
import Verif.Props.Numbers
import Verif.Props.Order
import Verif.Props.Defined
import Verif.Props.Documented
import Verif.Props.Meta
import Verif.Props.Callables
import Verif.Props.Exact
import Verif.Props.Sizes
import Verif.Props.Memory
import Verif.Props.Compare
import Verif.Props.Rounding
import Verif.Props.Session
import Verif.Props.Evolution
import Verif.Props.Compatible
import Verif.Props.Decl
import Verif.Props.Directions
import Verif.Props.Inst
import Verif.Props.Sized
import Verif.Props.FloatTrips
import Verif.Props.Descriptors
import Verif.Props.Floats
import Verif.Props.Calls
import Verif.Props.Ranges
import Verif.Props.Rename
import Verif.Props.Made
import Verif.Props.Amalgam
/-
The axioms each claimed theorem depends on: at most `propext`, `Classical.choice` and
`Quot.sound`. One line per theorem of MANIFEST.json.
-/
#print axioms S2S.Props.C01_round_trip_partial
#print axioms S2S.Props.C01_fails_stale_callable
#print axioms S2S.Props.C01_fails_lossy_constant
#print axioms S2S.Props.C01_fails_label_clash
#print axioms S2S.Props.C01_fails_narrow_big_endian_slot
#print axioms S2S.Props.C01_fails_above_ceiling
#print axioms S2S.Props.C01_fails_above_width
#print axioms S2S.Props.C02_rewrite_partial
#print axioms S2S.Props.C02_fails_embedded_nul
#print axioms S2S.Props.C02_fails_lossy_operand
#print axioms S2S.Props.C02_fails_negative_label
#print axioms S2S.Props.C02_fails_narrow_big_endian_slot
#print axioms S2S.Props.C02_fails_wide_length
#print axioms S2S.Props.C03_exact_consumption
#print axioms S2S.Props.C03_consumes_encoding
#print axioms S2S.Props.C04_truncation
#print axioms S2S.Props.C05_errors_final
#print axioms S2S.Props.C05_stuck_final
#print axioms S2S.Props.C06_stream_independence
#print axioms S2S.Props.C06_reference
#print axioms S2S.Props.C07_constraints_hold
#print axioms S2S.Props.C08_shaped_by_fields
#print axioms S2S.Props.C09_first_failing_field
#print axioms S2S.Props.C09_first_failure_decides
#print axioms S2S.Props.C10_read_nested
#print axioms S2S.Props.C10_read_any_depth
#print axioms S2S.Props.C10_write_nested
#print axioms S2S.Props.C10_write_any_depth
#print axioms S2S.Props.C11_over_ceiling
#print axioms S2S.Props.C11_iff_partial
#print axioms S2S.Props.C11_fails_records
#print axioms S2S.Props.C12_allocation_bounded
#print axioms S2S.Props.C12_per_field
#print axioms S2S.Props.C13_declared_bound_independent
#print axioms S2S.Props.C13_raising_default_keeps_success
#print axioms S2S.Props.C14_read_reasons
#print axioms S2S.Props.C14_read_exhaustion
#print axioms S2S.Props.C14_write_reasons
#print axioms S2S.Props.C15_length_partial
#print axioms S2S.Props.C15_stored_partial
#print axioms S2S.Props.C15_fails_stale
#print axioms S2S.Props.C15_fails_narrow_big_endian
#print axioms S2S.Props.C16_label_partial
#print axioms S2S.Props.C16_fails_clash
#print axioms S2S.Props.C16_fails_wide
#print axioms S2S.Props.C17_contradiction_partial
#print axioms S2S.Props.C17_agreement_partial
#print axioms S2S.Props.C17_fails_wide
#print axioms S2S.Props.C18_truncation_partial
#print axioms S2S.Props.C18_fails_verified
#print axioms S2S.Props.C18_fails_narrow_big_endian
#print axioms S2S.Props.C19_emitted_partial
#print axioms S2S.Props.C19_never_fails_partial
#print axioms S2S.Props.C19_stored_partial
#print axioms S2S.Props.C19_fails_length
#print axioms S2S.Props.C19_fails_slot
#print axioms S2S.Props.C19_fails_lossy
#print axioms S2S.Props.C19_fails_stale
#print axioms S2S.Props.C20_write
#print axioms S2S.Props.C20_write_absent
#print axioms S2S.Props.C20_mismatch
#print axioms S2S.Props.C20_decided
#print axioms S2S.Props.C20_read
#print axioms S2S.Props.C20_read_absent
#print axioms S2S.Props.C21_read_first
#print axioms S2S.Props.C21_read_none
#print axioms S2S.Props.C21_read_exactly_partial
#print axioms S2S.Props.C21_fails_nested
#print axioms S2S.Props.C21_write_first_partial
#print axioms S2S.Props.C21_write_mismatch_partial
#print axioms S2S.Props.C21_write_none_partial
#print axioms S2S.Props.C21_fails_stale
#print axioms S2S.Props.C22_emitted_partial
#print axioms S2S.Props.C22_mismatch_partial
#print axioms S2S.Props.C22_otherwise_partial
#print axioms S2S.Props.C22_fails_constant
#print axioms S2S.Props.C22_fails_constraint
#print axioms S2S.Props.C22_fails_wide
#print axioms S2S.Props.C23_clean_partial
#print axioms S2S.Props.C23_fails_record
#print axioms S2S.Props.C24_prefix
#print axioms S2S.Props.C24_stops
#print axioms S2S.Props.C24_room
#print axioms S2S.Props.C24_memstream
#print axioms S2S.Props.C25_write
#print axioms S2S.Props.C25_constant
#print axioms S2S.Props.C25_length
#print axioms S2S.Props.C25_label
#print axioms S2S.Props.C25_read
#print axioms S2S.Props.C25_inverse
#print axioms S2S.Props.C25_bytes
#print axioms S2S.Props.C25_host_read
#print axioms S2S.Props.C25_host_write
#print axioms S2S.Props.C26_memstream_partial
#print axioms S2S.Props.C26_fails_consumed
#print axioms S2S.Props.C26_fails_emitted
#print axioms S2S.Props.C26_fails_bool
#print axioms S2S.Props.C27_defined_partial
#print axioms S2S.Props.C27_fails_bool
#print axioms S2S.Props.C27_fails_width
#print axioms S2S.Props.C27_fails_string
#print axioms S2S.Props.C27_fails_ceiling
#print axioms S2S.Props.C27_fails_conversion
#print axioms S2S.Props.C28_access_partial
#print axioms S2S.Props.C28_fails_empty_name
#print axioms S2S.Props.C29_earlier_partial
#print axioms S2S.Props.C29_reader_partial
#print axioms S2S.Props.C29_fails_self
#print axioms S2S.Props.C29_fails_empty_name
#print axioms S2S.Props.C30_unique
#print axioms S2S.Props.C31_lookup_partial
#print axioms S2S.Props.C31_fails_empty_name
#print axioms S2S.Props.C32_order
#print axioms S2S.Props.C32_resolved
#print axioms S2S.Props.C32_two
#print axioms S2S.Props.C32_defaults
#print axioms S2S.Props.C33_little_partial
#print axioms S2S.Props.C33_width_partial
#print axioms S2S.Props.C33_fails_big
#print axioms S2S.Props.C33_fails_negative
#print axioms S2S.Props.C34_compare_partial
#print axioms S2S.Props.C34_any_of_partial
#print axioms S2S.Props.C34_read_partial
#print axioms S2S.Props.C34_fails_sign
#print axioms S2S.Props.C34_fails_narrow
#print axioms S2S.Props.C34_fails_any_of
#print axioms S2S.Props.C35_verified
#print axioms S2S.Props.C35_mismatch_partial
#print axioms S2S.Props.C35_siblings_partial
#print axioms S2S.Props.C35_fails_constraint
#print axioms S2S.Props.C35_fails_siblings
#print axioms S2S.Props.C36_negative_length_partial
#print axioms S2S.Props.C36_fails_wider
#print axioms S2S.Props.C37_unique_decoding_partial
#print axioms S2S.Props.C37_fails_above_width
#print axioms S2S.Props.C38_sequences_partial
#print axioms S2S.Props.C38_fails_label_clash
#print axioms S2S.Props.C39_transparent
#print axioms S2S.Props.C39_independent
#print axioms S2S.Props.C40_slots_ignored
#print axioms S2S.Props.C40_rewrite_partial
#print axioms S2S.Props.C40_fails_stale_callable
#print axioms S2S.Props.C40_fails_label_clash
#print axioms S2S.Props.C41_same_siblings_partial
#print axioms S2S.Props.C41_fails_constant
#print axioms S2S.Props.C41_fails_derived
#print axioms S2S.Props.C41_fails_wide_value
#print axioms S2S.Props.C42_ids
#print axioms S2S.Props.C43_sorts
#print axioms S2S.Props.C43_permutes
#print axioms S2S.Props.C44_read_failed
#print axioms S2S.Props.C44_read_success
#print axioms S2S.Props.C44_write_failed
#print axioms S2S.Props.C44_write_success
#print axioms S2S.Props.C45_round_trip
#print axioms S2S.Props.C46_unique_decoding
#print axioms S2S.Props.C47_sequences
#print axioms S2S.Props.C48_slots_ignored
#print axioms S2S.Props.C49_rewrite
#print axioms S2S.Props.C50_defined
#print axioms S2S.Props.C50_fails_unterminated
#print axioms S2S.Props.C50_fails_wide
#print axioms S2S.Props.C51_length
#print axioms S2S.Props.C52_discriminant
#print axioms S2S.Props.C53_producers
#print axioms S2S.Props.C54_no_truncation
#print axioms S2S.Props.C55_constant
#print axioms S2S.Props.C56_read
#print axioms S2S.Props.C56_write
#print axioms S2S.Props.C57_conditional_length
#print axioms S2S.Props.C58_cut
#print axioms S2S.Props.C59_computed_length
#print axioms S2S.Props.C60_compare
#print axioms S2S.Props.C60_any_of
#print axioms S2S.Props.C60_passed
#print axioms S2S.Props.C61_narrow
#print axioms S2S.Props.C62_string
#print axioms S2S.Props.C62_unterminated
#print axioms S2S.Props.C62_array
#print axioms S2S.Props.C63_read
#print axioms S2S.Props.C63_read_memstream
#print axioms S2S.Props.C63_read_bool
#print axioms S2S.Props.C63_write
#print axioms S2S.Props.C63_write_memstream
#print axioms S2S.Props.C64_hazards
#print axioms S2S.Props.C64_defined
#print axioms S2S.Props.C65_lookup
#print axioms S2S.Props.C66_accepts_partial
#print axioms S2S.Props.C66_wellFormed_partial
#print axioms S2S.Props.C66_fails_empty
#print axioms S2S.Props.C67_access
#print axioms S2S.Props.C67_hidden
#print axioms S2S.Props.C67_mutable
#print axioms S2S.Props.C67_ignored
#print axioms S2S.Props.C68_reader
#print axioms S2S.Props.C68_same_siblings
#print axioms S2S.Props.C68_same_results
#print axioms S2S.Props.C69_exactly_valid
#print axioms S2S.Props.C69_otherwise_error
#print axioms S2S.Props.C70_same_language
#print axioms S2S.Props.C70_canonical
#print axioms S2S.Props.C71_read_between
#print axioms S2S.Props.C71_write_between
#print axioms S2S.Props.C71_too_short
#print axioms S2S.Props.C71_fixed_size
#print axioms S2S.Props.C71_write_any
#print axioms S2S.Props.C72_memory
#print axioms S2S.Props.C72_memory_success
#print axioms S2S.Props.C72_calls
#print axioms S2S.Props.C72_input
#print axioms S2S.Props.C72_needs_solid
#print axioms S2S.Props.C73_content
#print axioms S2S.Props.C73_queue
#print axioms S2S.Props.C73_empty
#print axioms S2S.Props.C73_needs_success
#print axioms S2S.Props.C74_old_reader
#print axioms S2S.Props.C74_old_reader_bytes
#print axioms S2S.Props.C74_new_to_old_partial
#print axioms S2S.Props.C74_new_reader
#print axioms S2S.Props.C74_same_failure
#print axioms S2S.Props.C74_old_data_rejected
#print axioms S2S.Props.C74_optional_extension
#print axioms S2S.Props.C74_fails_narrow
#print axioms S2S.Props.C75_engaged
#print axioms S2S.Props.C75_empty
#print axioms S2S.Props.C75_no_label
#print axioms S2S.Props.C75_not_writable
#print axioms S2S.Props.C76_accepts
#print axioms S2S.Props.C76_good_labels
#print axioms S2S.Props.C76_labels_clash
#print axioms S2S.Props.C76_narrow_size
#print axioms S2S.Props.C77_some
#print axioms S2S.Props.C77_unique
#print axioms S2S.Props.C77_spelled
#print axioms S2S.Props.C78_schema
#print axioms S2S.Props.C78_resolves
#print axioms S2S.Props.C78_self_consistent
#print axioms S2S.Props.C79_instantiates_partial
#print axioms S2S.Props.C79_host_partial
#print axioms S2S.Props.C79_obstacles
#print axioms S2S.Props.C79_fails_vector_bool
#print axioms S2S.Props.C98_fails_inside
#print axioms S2S.Props.C80_scalar
#print axioms S2S.Props.C80_container
#print axioms S2S.Props.C80_fixed
#print axioms S2S.Props.C80_magic_number
#print axioms S2S.Props.C80_magic
#print axioms S2S.Props.C80_maybe
#print axioms S2S.Props.C80_variance
#print axioms S2S.Props.C80_stands_for
#print axioms S2S.Props.C80_maybe_stands_for
#print axioms S2S.Props.C80_union_stands_for
#print axioms S2S.Props.C81_foreign
#print axioms S2S.Props.C81_read
#print axioms S2S.Props.C81_write
#print axioms S2S.Props.C81_bits
#print axioms S2S.Props.C82_read
#print axioms S2S.Props.C82_write
#print axioms S2S.Props.C82_old_to_new_partial
#print axioms S2S.Props.C82_constant_matters
#print axioms S2S.Props.C82_order_matters
#print axioms S2S.Props.C82_ceiling_matters
#print axioms S2S.Props.C82_fails_narrow
#print axioms S2S.Props.C83_closed
#print axioms S2S.Props.C83_open
#print axioms S2S.Props.C83_disjoint
#print axioms S2S.Props.C83_overlap_refused
#print axioms S2S.Props.C83_nested_undefined
#print axioms S2S.Props.C84_read
#print axioms S2S.Props.C84_read_stream
#print axioms S2S.Props.C84_write
#print axioms S2S.Props.C84_accepts
#print axioms S2S.Props.C84_access
#print axioms S2S.Props.C85_of_writable_partial
#print axioms S2S.Props.C85_of_readable_partial
#print axioms S2S.Props.C85_fails_vector_bool
#print axioms S2S.Props.C101_fails_inside
#print axioms S2S.Props.C105_fails_vector
#print axioms S2S.Props.C105_fails_record
#print axioms S2S.Props.C86_same
#print axioms S2S.Props.C86_bounded
#print axioms S2S.Props.C86_success
#print axioms S2S.Props.C86_linear
#print axioms S2S.Props.C86_depth
#print axioms S2S.Props.C87_any_allocator
#print axioms S2S.Props.C87_needed
#print axioms S2S.Props.C87_enough
#print axioms S2S.Props.C88_equality
#print axioms S2S.Props.C88_order
#print axioms S2S.Props.C88_gte
#print axioms S2S.Props.C88_any_of
#print axioms S2S.Props.C88_int
#print axioms S2S.Props.C88_int_any
#print axioms S2S.Props.C88_int_array
#print axioms S2S.Props.C89_number
#print axioms S2S.Props.C89_defined
#print axioms S2S.Props.C89_meaning
#print axioms S2S.Props.C89_any_of
#print axioms S2S.Props.C89_nan
#print axioms S2S.Props.C89_lt_bits
#print axioms S2S.Props.C89_lte_bits
#print axioms S2S.Props.C89_read
#print axioms S2S.Props.C90_meaning
#print axioms S2S.Props.C90_total
#print axioms S2S.Props.C90_nan
#print axioms S2S.Props.C90_bytes
#print axioms S2S.Props.C90_read
#print axioms S2S.Props.C91_meaning
#print axioms S2S.Props.C91_undefined
#print axioms S2S.Props.C91_nan
#print axioms S2S.Props.C91_eq
#print axioms S2S.Props.C91_bool
#print axioms S2S.Props.C91_rewrites
#print axioms S2S.Props.C91_reads_nan
#print axioms S2S.Props.C92_read_is_dialogue
#print axioms S2S.Props.C92_dialogue_says
#print axioms S2S.Props.C92_dialogue_reads
#print axioms S2S.Props.C93_steady_read
#print axioms S2S.Props.C93_steady_write
#print axioms S2S.Props.C93_steady_function
#print axioms S2S.Props.C93_own
#print axioms S2S.Props.C93_calm
#print axioms S2S.Props.C94_broken_off
#print axioms S2S.Props.C94_bytes
#print axioms S2S.Props.C95_one_string
#print axioms S2S.Props.C95_same_as_function
#print axioms S2S.Props.C95_unsteady_malformed
#print axioms S2S.Props.C96_round_trip
#print axioms S2S.Props.C97_write_asks
#print axioms S2S.Props.C97_broken_off
#print axioms S2S.Props.C98_spelled_partial
#print axioms S2S.Props.C98_foreign_partial
#print axioms S2S.Props.C98_by_hand
#print axioms S2S.Props.C103_fails_array
#print axioms S2S.Props.C99_instantiates_partial
#print axioms S2S.Props.C99_none
#print axioms S2S.Props.C99_host
#print axioms S2S.Props.C99_obstacles
#print axioms S2S.Props.C100_constexpr
#print axioms S2S.Props.C100_run_time
#print axioms S2S.Props.C101_of_writable_partial
#print axioms S2S.Props.C101_of_readable_partial
#print axioms S2S.Props.C102_accepts
#print axioms S2S.Props.C102_wellFormed
#print axioms S2S.Props.C103_read_partial
#print axioms S2S.Props.C103_write
#print axioms S2S.Props.C103_write_inside
#print axioms S2S.Props.C104_instantiates
#print axioms S2S.Props.C105_of_writable_partial
#print axioms S2S.Props.C105_of_readable_partial
#print axioms S2S.Props.C106_meaning
#print axioms S2S.Props.C106_sound
#print axioms S2S.Props.C106_complete
#print axioms S2S.Props.C106_exact
#print axioms S2S.Props.C106_digits
#print axioms S2S.Props.C106_nearest
#print axioms S2S.Props.C106_refuses
#print axioms S2S.Props.C106_ieee
#print axioms S2S.Props.C107_typed
#print axioms S2S.Props.C107_defined
#print axioms S2S.Props.C107_inside
#print axioms S2S.Props.C107_kept
#print axioms S2S.Props.C107_fails_empty_name
#print axioms S2S.Props.C108_reach
#print axioms S2S.Props.C108_writes
#print axioms S2S.Props.C108_messages
#print axioms S2S.Props.C108_fails_stale
#print axioms S2S.Props.C109_header
#print axioms S2S.Props.C109_runs
#print axioms S2S.Props.C109_fails_cycle
#print axioms S2S.Props.C109_fails_extension
#print axioms S2S.Props.C109_order_differs
#print axioms S2S.Props.C109_keyword
#print axioms S2S.Props.C109_word
#print axioms S2S.Props.C109_space
#print axioms S2S.Props.C110_deterministic
#print axioms S2S.Props.C111_selfContained
#print axioms S2S.Props.C111_fails_comment
#print axioms S2S.Props.C112_shown
#print axioms S2S.Props.C112_hello
#print axioms S2S.Props.C112_log
#print axioms S2S.Props.C112_gzip
#print axioms S2S.Props.C112_tlv
#print axioms S2S.Props.C112_wav
#print axioms S2S.Props.C112_firmware
#print axioms S2S.Props.C112_tagged
#print axioms S2S.Props.C112_tile
#print axioms S2S.Props.C112_telemetry
#print axioms S2S.Props.C112_extent
#print axioms S2S.Props.C112_partition
#print axioms S2S.Props.C112_bmp
#print axioms S2S.Props.C112_heartbeat
#print axioms S2S.Props.C112_fails_overflow
#print axioms S2S.Props.C112_fails_shipped
#print axioms S2S.Props.C113_pointer
#print axioms S2S.Props.C113_array
#print axioms S2S.Props.C113_reads_iff
#print axioms S2S.Props.C113_writes_iff
#print axioms S2S.Props.C113_room
#print axioms S2S.Props.C113_fails_both
#print axioms S2S.Props.C113_fails_unseen
#print axioms S2S.Props.C113_fails_order
#print axioms S2S.Props.C114_iff
#print axioms S2S.Props.C114_read
#print axioms S2S.Props.C114_write
#print axioms S2S.Props.C114_fails_wrapper
#print axioms S2S.Props.C115_sends
#print axioms S2S.Props.C115_one
#print axioms S2S.Props.C116_round_trip_iff
#print axioms S2S.Props.C116_otherwise
#print axioms S2S.Props.C116_schema_iff
#print axioms S2S.Props.C116_sequences_iff
#print axioms S2S.Props.C117_rewrite_iff
#print axioms S2S.Props.C117_same
#print axioms S2S.Props.C117_schema_iff
#print axioms S2S.Props.C118_refused_iff
#print axioms S2S.Props.C118_streams
#print axioms S2S.Props.C118_nested
#print axioms S2S.Props.C118_three_ways
#print axioms S2S.Props.C118_one_way
#print axioms S2S.Props.C119_unsent_iff
#print axioms S2S.Props.C119_streams
#print axioms S2S.Props.C119_on_every_stream
#print axioms S2S.Props.C119_three_ways
#print axioms S2S.Props.C119_one_way
#print axioms S2S.Props.C119_sent_or_not
#print axioms S2S.Props.C119_nested
#print axioms S2S.Props.C120_exhausted_iff
#print axioms S2S.Props.C120_overflow_exhausts
#print axioms S2S.Props.C120_ok_iff
#print axioms S2S.Props.C120_enough
#print axioms S2S.Props.C120_error_iff
#print axioms S2S.Props.C120_fault_or_room
#print axioms S2S.Props.C120_three_ways
#print axioms S2S.Props.C120_memstream
#print axioms S2S.Props.C121_vector
#print axioms S2S.Props.C121_find
#print axioms S2S.Props.C121_find_forever
#print axioms S2S.Props.C121_equal
#print axioms S2S.Props.C121_sort
#print axioms S2S.Props.C121_set
#print axioms S2S.Props.C121_map
#print axioms S2S.Props.C121_tables
#print axioms S2S.Props.C121_unique_ids
#print axioms S2S.Props.C121_lookup
#print axioms S2S.Props.C121_types
#print axioms S2S.Props.C121_names
#print axioms S2S.Props.C121_fails_comparisons
#print axioms S2S.Props.C122_never_sent
#print axioms S2S.Props.C122_never_read
#print axioms S2S.Props.C122_chosen
#print axioms S2S.Props.C122_switch_undefined
#print axioms S2S.Props.C123_valid_iff
#print axioms S2S.Props.C123_reads
#print axioms S2S.Props.C123_otherwise
#print axioms S2S.Props.C123_agree
#print axioms S2S.Props.C123_written
#print axioms S2S.Props.C123_passed_on
#print axioms S2S.Props.C123_fails_wide
#print axioms S2S.Props.C123_fails_sizeof
#print axioms S2S.Props.C124_same_structs
#print axioms S2S.Props.C124_transcode
#print axioms S2S.Props.C124_injective
#print axioms S2S.Props.C124_exactly
#print axioms S2S.Props.C124_fails_narrow
#print axioms S2S.Props.C125_exhausted
#print axioms S2S.Props.C125_replaced
#print axioms S2S.Props.C125_field
#print axioms S2S.Props.C125_confined
#print axioms S2S.Props.C125_defined
#print axioms S2S.Props.C125_fails_seen
#print axioms S2S.Props.C125_fails_flexible
#print axioms S2S.Props.C126_kept_partial
#print axioms S2S.Props.C126_rechecked_partial
#print axioms S2S.Props.C126_replaced
#print axioms S2S.Props.C126_refilled
#print axioms S2S.Props.C126_fails_shared
#print axioms S2S.Props.C126_fails_seen
#print axioms S2S.Props.C126_fails_wide
#print axioms S2S.Props.C127_switch
#print axioms S2S.Props.C127_whole
#print axioms S2S.Props.C127_never
#print axioms S2S.Props.C127_read_back_iff_partial
#print axioms S2S.Props.C127_read_back_partial
#print axioms S2S.Props.C127_stored
#print axioms S2S.Props.C127_fails_half
#print axioms S2S.Props.C127_fails_rounding
#print axioms S2S.Props.C127_fails_narrow
#print axioms S2S.Props.C128_read
#print axioms S2S.Props.C128_write
#print axioms S2S.Props.C128_switch
#print axioms S2S.Props.C128_selects
#print axioms S2S.Props.C128_fails_constant
#print axioms S2S.Props.C128_fails_labels
#print axioms S2S.Props.C129_problems
#print axioms S2S.Props.C129_passes
#print axioms S2S.Props.C129_no_nav
#print axioms S2S.Props.C129_uncommented
#print axioms S2S.Props.C129_fails_comment
#print axioms S2S.Props.C129_fails_untitled
#print axioms S2S.Props.C130_blocks
#print axioms S2S.Props.C130_reported
#print axioms S2S.Props.C130_passes
#print axioms S2S.Props.C130_difference
#print axioms S2S.Props.C130_fails_swapped
#print axioms S2S.Props.C130_fails_unseen
#print axioms S2S.Props.C130_fails_words
#print axioms S2S.Props.C131_accepts
#print axioms S2S.Props.C131_integers
#print axioms S2S.Props.C131_unambiguous
#print axioms S2S.Props.C131_selects
#print axioms S2S.Props.C131_stored
#print axioms S2S.Props.C131_fails_fraction
#print axioms S2S.Props.C131_fails_negative
#print axioms S2S.Props.C131_fails_rounding
#print axioms S2S.Props.C132_bytes
#print axioms S2S.Props.C132_valid
#print axioms S2S.Props.C132_read
#print axioms S2S.Props.C132_write_partial
#print axioms S2S.Props.C132_fails_seen
#print axioms S2S.Props.C132_fails_wide
#print axioms S2S.Props.C133_read
#print axioms S2S.Props.C133_write
#print axioms S2S.Props.C134_read
#print axioms S2S.Props.C134_write
#print axioms S2S.Props.C134_fails_seen
#print axioms S2S.Props.C135_usual
#print axioms S2S.Props.C135_read
#print axioms S2S.Props.C135_short
#print axioms S2S.Props.C135_beyond
#print axioms S2S.Props.C135_write
#print axioms S2S.Props.C135_round
#print axioms S2S.Props.C135_unterminated
#print axioms S2S.Props.C135_fails_foreign
#print axioms S2S.Props.C136_accepted
#print axioms S2S.Props.C136_read
#print axioms S2S.Props.C136_write
#print axioms S2S.Props.C136_written
#print axioms S2S.Props.C136_fails
#print axioms S2S.Props.C137_read
#print axioms S2S.Props.C137_write
#print axioms S2S.Props.C137_instead
#print axioms S2S.Props.C137_instead_write
#print axioms S2S.Props.C138_pick
#print axioms S2S.Props.C138_fixed
#print axioms S2S.Props.C138_trailer
#print axioms S2S.Props.C138_patch
#print axioms S2S.Props.C138_fails
#print axioms S2S.Props.C139_read
#print axioms S2S.Props.C139_write
#print axioms S2S.Props.C139_round
#print axioms S2S.Props.C139_fails_foreign
#print axioms S2S.Props.C140_read
#print axioms S2S.Props.C140_valid
#print axioms S2S.Props.C140_write
#print axioms S2S.Props.C141_pieces
#print axioms S2S.Props.C141_structs
#print axioms S2S.Props.C141_kept
#print axioms S2S.Props.C141_ends
#print axioms S2S.Props.C141_arrive
#print axioms S2S.Props.C142_field
#print axioms S2S.Props.C142_maybe
#print axioms S2S.Props.C142_case
#print axioms S2S.Props.C142_in_bounds
#print axioms S2S.Props.C142_magic
#print axioms S2S.Props.C143_read
#print axioms S2S.Props.C143_valid
#print axioms S2S.Props.C143_write_partial
#print axioms S2S.Props.C143_fails_narrow
#print axioms S2S.Props.C144_check
#print axioms S2S.Props.C144_read
#print axioms S2S.Props.C144_write
#print axioms S2S.Props.C145_read
#print axioms S2S.Props.C145_write_host
#print axioms S2S.Props.C145_write_foreign_partial
#print axioms S2S.Props.C145_no_return_partial
#print axioms S2S.Props.C145_round_trip_partial
#print axioms S2S.Props.C145_fails_narrow
#print axioms S2S.Props.C146_read
#print axioms S2S.Props.C146_write_partial
#print axioms S2S.Props.C146_filled_partial
#print axioms S2S.Props.C146_fails_constant
#print axioms S2S.Props.C146_fails_wide
#print axioms S2S.Props.C147_read
#print axioms S2S.Props.C147_same
#print axioms S2S.Props.C147_write
#print axioms S2S.Props.C147_wellformed
#print axioms S2S.Props.C147_fails_error
#print axioms S2S.Props.C148_read
#print axioms S2S.Props.C148_write
#print axioms S2S.Props.C148_back_partial
#print axioms S2S.Props.C148_round_partial
#print axioms S2S.Props.C148_fails_read
#print axioms S2S.Props.C148_fails_narrow
#print axioms S2S.Props.C149_read
#print axioms S2S.Props.C149_write
#print axioms S2S.Props.C149_stream
#print axioms S2S.Props.C149_wellformed
#print axioms S2S.Props.C149_index
#print axioms S2S.Props.C149_fails_checked
#print axioms S2S.Props.C150_read
#print axioms S2S.Props.C150_write
#print axioms S2S.Props.C150_deep
#print axioms S2S.Props.C150_trans
#print axioms S2S.Props.C150_flat
#print axioms S2S.Props.C150_unions
#print axioms S2S.Props.C150_renamed
#print axioms S2S.Props.C151_read
#print axioms S2S.Props.C151_write
#print axioms S2S.Props.C151_round
#print axioms S2S.Props.C151_descriptors
#print axioms S2S.Props.C151_fails_guard
#print axioms S2S.Props.C151_fails_foreign
#print axioms S2S.Props.C152_read
#print axioms S2S.Props.C152_member
#print axioms S2S.Props.C152_write
#print axioms S2S.Props.C152_optional
#print axioms S2S.Props.C152_alternative
#print axioms S2S.Props.C152_cast
#print axioms S2S.Props.C152_fails_looked
#print axioms S2S.Props.C152_fails_foreign
#print axioms S2S.Props.C152_fails_width
#print axioms S2S.Props.C153_read
#print axioms S2S.Props.C153_write
#print axioms S2S.Props.C153_full
#print axioms S2S.Props.C153_round_partial
#print axioms S2S.Props.C153_says_partial
#print axioms S2S.Props.C153_rewrite_partial
#print axioms S2S.Props.C153_fails_count
#print axioms S2S.Props.C153_fails_refused
#print axioms S2S.Props.C153_fails_computed
#print axioms S2S.Props.C153_fails_narrow
#print axioms S2S.Props.C154_eq
#print axioms S2S.Props.C154_read
#print axioms S2S.Props.C154_write
#print axioms S2S.Props.C154_refuses
#print axioms S2S.Props.C154_fails_stale
#print axioms S2S.Props.C154_fails_ceiling
#print axioms S2S.Props.C154_fails_constexpr
#print axioms S2S.Props.C154_fails_narrow
#print axioms S2S.Props.C155_at_the_door
#print axioms S2S.Props.C155_inside
#print axioms S2S.Props.C155_negative
#print axioms S2S.Props.C156_accepted
#print axioms S2S.Props.C156_reader
#print axioms S2S.Props.C156_read_iff
#print axioms S2S.Props.C156_write_iff
#print axioms S2S.Props.C156_unsent_iff
#print axioms S2S.Props.C156_round_trip_iff
#print axioms S2S.Props.C156_wellFormed
#print axioms S2S.Props.C156_fails_lost
#print axioms S2S.Props.C156_fails_unwritable
#print axioms S2S.Props.C157_appended
#print axioms S2S.Props.C157_appended_own
#print axioms S2S.Props.C157_loosened
#print axioms S2S.Props.C158_guarded
#print axioms S2S.Props.C158_guarded_back
#print axioms S2S.Props.C158_counted
#print axioms S2S.Props.C158_counted_back
#print axioms S2S.Props.C158_labels
#print axioms S2S.Props.C158_labels_pick
#print axioms S2S.Props.C158_vacant_host
#print axioms S2S.Props.C158_vacant_foreign
#print axioms S2S.Props.C158_vacant_no_return
#print axioms S2S.Props.C158_records_sent
#print axioms S2S.Props.C158_records
#print axioms S2S.Props.C159_sent
#print axioms S2S.Props.C159_write
#print axioms S2S.Props.C159_back
#print axioms S2S.Props.C160_sent
#print axioms S2S.Props.C160_write
#print axioms S2S.Props.C160_alone
#print axioms S2S.Props.C160_near
#print axioms S2S.Props.C161_write
#print axioms S2S.Props.C161_filled
#print axioms S2S.Props.C162_read
#print axioms S2S.Props.C162_errors
#print axioms S2S.Props.C162_undefined
#print axioms S2S.Props.C162_lengths
#print axioms S2S.Props.C162_write
#print axioms S2S.Props.C162_refused
#print axioms S2S.Props.C162_too_many
#print axioms S2S.Props.C162_sizes
#print axioms S2S.Props.C162_round
#print axioms S2S.Props.C162_computed
#print axioms S2S.Props.C162_converts
#print axioms S2S.Props.C162_fails_narrow
#print axioms S2S.Props.C163_read
#print axioms S2S.Props.C163_bytes
#print axioms S2S.Props.C163_chosen
#print axioms S2S.Props.C163_write
#print axioms S2S.Props.C163_refused
#print axioms S2S.Props.C163_round
#print axioms S2S.Props.C163_labels
#print axioms S2S.Props.C163_tells
#print axioms S2S.Props.C163_lost
#print axioms S2S.Props.C163_fails_rounded
#print axioms S2S.Props.C163_fails_sign
#print axioms S2S.Props.C163_fails_negative
#print axioms S2S.Props.C164_read
#print axioms S2S.Props.C164_errors
#print axioms S2S.Props.C164_undefined
#print axioms S2S.Props.C164_write
#print axioms S2S.Props.C164_refused
#print axioms S2S.Props.C164_iff
#print axioms S2S.Props.C164_unwritable
#print axioms S2S.Props.C164_contradicting
#print axioms S2S.Props.C164_round
#print axioms S2S.Props.C164_computed
#print axioms S2S.Props.C164_fails_again
#print axioms S2S.Props.C165_of_writable
#print axioms S2S.Props.C165_of_readable
#print axioms S2S.Props.C165_spelled
#print axioms S2S.Props.C165_lengths
#print axioms S2S.Props.C166_read
#print axioms S2S.Props.C166_write
#print axioms S2S.Props.C166_one
#print axioms S2S.Props.C166_round
#print axioms S2S.Props.C166_rewrite
#print axioms S2S.Props.C166_full
#print axioms S2S.Props.C166_rewrite_plain
#print axioms S2S.Props.C166_unwritable
#print axioms S2S.Props.C166_fails_bounds
#print axioms S2S.Props.C167_lens
#print axioms S2S.Props.C167_lens_back
#print axioms S2S.Props.C167_opts
#print axioms S2S.Props.C167_opts_back
#print axioms S2S.Props.C167_tags
#print axioms S2S.Props.C167_tags_back
#print axioms S2S.Props.C167_sized
#print axioms S2S.Props.C167_sized_back
