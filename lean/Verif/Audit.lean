import Verif.Props.Access
import Verif.Props.Agree
import Verif.Props.Alike
import Verif.Props.Any
import Verif.Props.AnyTag
import Verif.Props.Api
import Verif.Props.BerFaults
import Verif.Props.Build
import Verif.Props.Canonical
import Verif.Props.Codes
import Verif.Props.Combinators
import Verif.Props.Contents
import Verif.Props.Cost
import Verif.Props.CostBelow
import Verif.Props.CostExact
import Verif.Props.CostIndefinite
import Verif.Props.CostOctets
import Verif.Props.CostSchema
import Verif.Props.CostSchemaOctets
import Verif.Props.CostStream
import Verif.Props.CostStreamDer
import Verif.Props.CostStreamTyped
import Verif.Props.CostWrite
import Verif.Props.Cuts
import Verif.Props.Der
import Verif.Props.Doc
import Verif.Props.Dump
import Verif.Props.DumpText
import Verif.Props.Edit
import Verif.Props.EncodeRaw
import Verif.Props.Fail
import Verif.Props.FailComb
import Verif.Props.FailContent
import Verif.Props.FailInt
import Verif.Props.FailTyped
import Verif.Props.Faults
import Verif.Props.Final
import Verif.Props.Formatter
import Verif.Props.Forms
import Verif.Props.Framing
import Verif.Props.Grow
import Verif.Props.Integers
import Verif.Props.Lang
import Verif.Props.LangExact
import Verif.Props.LangLaws
import Verif.Props.LangStream
import Verif.Props.Limits
import Verif.Props.Linear
import Verif.Props.Methods
import Verif.Props.Nesting
import Verif.Props.NestingMut
import Verif.Props.Numbers
import Verif.Props.Oid
import Verif.Props.OidText
import Verif.Props.Place
import Verif.Props.PlaceAccess
import Verif.Props.PlaceSchema
import Verif.Props.Print
import Verif.Props.Program
import Verif.Props.Reform
import Verif.Props.Repeat
import Verif.Props.Reproduce
import Verif.Props.Row
import Verif.Props.Schema
import Verif.Props.SchemaFail
import Verif.Props.SchemaWrite
import Verif.Props.Serialize
import Verif.Props.SetOrder
import Verif.Props.Stateful
import Verif.Props.Survive
import Verif.Props.TargetProg
import Verif.Props.Targets
import Verif.Props.Text
import Verif.Props.TextSize
import Verif.Props.Times
import Verif.Props.Total
import Verif.Props.TypeBuild
import Verif.Props.TypeUnique
import Verif.Props.TypeValue
import Verif.Props.ValidBer
import Verif.Props.ValidBerExact
import Verif.Props.ValidDer
import Verif.Props.ValidExact
import Verif.Props.ValueBer
import Verif.Props.ValueMeaning
import Verif.Props.Values
import Verif.Props.Word
import Verif.Props.Writer
/-!
# Axioms of the claimed theorems

Generated by tools/gen_manifest.py.  The build log shows the axioms of every theorem named in
MANIFEST.json; only `propext`, `Classical.choice` and `Quot.sound` may occur.
-/
#print axioms Verif.C01_parse_ber_total
#print axioms Verif.C01_parse_ber_recursive_total
#print axioms Verif.C01_parse_ber_any_with_tag_total
#print axioms Verif.C01_parse_ber_any_total
#print axioms Verif.C01_header_and_content_total
#print axioms Verif.C02_parse_der_total
#print axioms Verif.C02_parse_der_recursive_total
#print axioms Verif.C02_der_read_element_total
#print axioms Verif.C03_content_parsers_total
#print axioms Verif.C03_typed_parsers_total
#print axioms Verif.C03_native_integers_total
#print axioms Verif.C03_slice_total
#print axioms Verif.C03_try_from_any_total
#print axioms Verif.C04_container_total
#print axioms Verif.C04_defined_total
#print axioms Verif.C04_of_v_total_partial
#print axioms Verif.C04_of_v_longer_remainder_counterexample
#print axioms Verif.C04_full_counterexample
#print axioms Verif.C04_tagged_explicit_g_total
#print axioms Verif.C04_tagged_implicit_g_total
#print axioms Verif.C04_object_combinators_total_partial
#print axioms Verif.C04_tagged_objects_total
#print axioms Verif.C04_optional_total
#print axioms Verif.C05_parse_ber_strict_suffix
#print axioms Verif.C05_parse_ber_any_strict_suffix
#print axioms Verif.C05_parse_der_strict_suffix
#print axioms Verif.C05_typed_strict_suffix
#print axioms Verif.C05_container_strict_suffix
#print axioms Verif.C06_parse_ber_any_definite
#print axioms Verif.C06_parse_ber_definite
#print axioms Verif.C06_parse_der_definite
#print axioms Verif.C06_container_definite
#print axioms Verif.C06_slice_definite
#print axioms Verif.C07_ber_header_grammar
#print axioms Verif.C07_der_header_grammar
#print axioms Verif.C07_header_unambiguous
#print axioms Verif.C08_tag_number_wraps_counterexample
#print axioms Verif.C08_parse_ber_wraps_counterexample
#print axioms Verif.C08_same_tag_iff
#print axioms Verif.C08_tag_numbers_distinct_partial
#print axioms Verif.C09_empty_context_zero_counterexample
#print axioms Verif.C09_indefinite_content_partial
#print axioms Verif.C09_parse_ber_any_indefinite_partial
#print axioms Verif.C09_other_terminator_counterexample
#print axioms Verif.C09_stray_octet_counterexample
#print axioms Verif.C09_converse_partial
#print axioms Verif.C10_parse_ber_extension
#print axioms Verif.C10_parse_ber_any_extension
#print axioms Verif.C10_parse_ber_any_with_tag_extension
#print axioms Verif.C10_parse_der_extension
#print axioms Verif.C10_typed_extension
#print axioms Verif.C10_native_integers_extension
#print axioms Verif.C10_container_extension
#print axioms Verif.C11_truncated_tag_counterexample
#print axioms Verif.C11_container_counterexample
#print axioms Verif.C11_parse_ber_truncation_partial
#print axioms Verif.C11_parse_der_truncation_partial
#print axioms Verif.C11_parse_ber_with_tag_truncation_partial
#print axioms Verif.C11_parse_der_with_tag_truncation_partial
#print axioms Verif.C12_parse_ber_hint
#print axioms Verif.C12_any_and_integers_hint
#print axioms Verif.C12_overestimate_counterexample
#print axioms Verif.C12_der_and_typed_hint_partial
#print axioms Verif.C13_depth_exact
#print axioms Verif.C13_parse_ber_limit
#print axioms Verif.C13_with_tag_depth_exact
#print axioms Verif.C14_indefinite_nesting
#print axioms Verif.C14_accepted_bounded
#print axioms Verif.C14_nest_sharp
#print axioms Verif.C14_raise_limit
#print axioms Verif.C15_parse_ber_counterexample
#print axioms Verif.C15_parse_ber_accepts_large_counterexample
#print axioms Verif.C15_typed_der_and_container_counterexample
#print axioms Verif.C15_parse_der_partial
#print axioms Verif.C15_parse_ber_with_tag_partial
#print axioms Verif.C16_class_counterexample
#print axioms Verif.C16_parse_ber_bool_partial
#print axioms Verif.C16_parse_ber_bool_element
#print axioms Verif.C16_parse_der_bool_partial
#print axioms Verif.C17_as_u64_exact
#print axioms Verif.C17_as_u32_exact
#print axioms Verif.C17_as_u64_ok_iff
#print axioms Verif.C17_array_size
#print axioms Verif.C17_leading_zeroes
#print axioms Verif.C18_positive_read_as_negative_counterexample
#print axioms Verif.C18_padded_negative_counterexample
#print axioms Verif.C18_as_i64_partial
#print axioms Verif.C18_as_i32_partial
#print axioms Verif.C18_short_content_partial
#print axioms Verif.C19_one_step_two_steps_partial
#print axioms Verif.C19_two_steps_imply_one_step
#print axioms Verif.C19_large_object_counterexample
#print axioms Verif.C20_as_bigint_exact
#print axioms Verif.C20_as_biguint_exact
#print axioms Verif.C20_not_integer
#print axioms Verif.C21_as_u64_bitstring
#print axioms Verif.C21_as_u32_bitstring
#print axioms Verif.C21_fits
#print axioms Verif.C22_is_set
#print axioms Verif.C22_past_end
#print axioms Verif.C23_enumerated
#print axioms Verif.C23_enumerated_with_tag
#print axioms Verif.C23_leading_zeroes
#print axioms Verif.C24_strings
#print axioms Verif.C24_accept_iff
#print axioms Verif.C25_bmp_accept_iff
#print axioms Verif.C25_even
#print axioms Verif.C25_surrogates
#print axioms Verif.C25_bmp_verbatim
#print axioms Verif.C26_verbatim
#print axioms Verif.C26_accessors
#print axioms Verif.C26_slices
#print axioms Verif.C27_parse_ber
#print axioms Verif.C27_parse_der
#print axioms Verif.C27_variant_unique
#print axioms Verif.C28_der_bool
#print axioms Verif.C28_der_bool_refused
#print axioms Verif.C29_leading_ones_counterexample
#print axioms Verif.C29_der_integer_partial
#print axioms Verif.C29_accepted
#print axioms Verif.C29_der_native
#print axioms Verif.C30_no_data_counterexample
#print axioms Verif.C30_der_bitstring_partial
#print axioms Verif.C30_accepted
#print axioms Verif.C31_der_times
#print axioms Verif.C31_der_times_refused
#print axioms Verif.C32_der_primitive
#print axioms Verif.C32_constructed_refused
#print axioms Verif.C33_indefinite_refused
#print axioms Verif.C33_indefinite_refused_combinators
#print axioms Verif.C33_indefinite_refused_objects
#print axioms Verif.C33_optional_implicit_counterexample
#print axioms Verif.C34_nested_counterexample
#print axioms Verif.C34_outermost_partial
#print axioms Verif.C35_length_octets_counterexample
#print axioms Verif.C35_same_contents_partial
#print axioms Verif.C36_depth_zero_counterexample
#print axioms Verif.C36_parse_der_partial
#print axioms Verif.C36_with_tag_partial
#print axioms Verif.C36_large_bitstring_counterexample
#print axioms Verif.C37_empty_error_counterexample
#print axioms Verif.C37_of_v_partial
#print axioms Verif.C37_pieces
#print axioms Verif.C37_library_parsers_empty
#print axioms Verif.C37_object_versions_partial
#print axioms Verif.C38_container
#print axioms Verif.C38_container_ok
#print axioms Verif.C38_container_not_run
#print axioms Verif.C38_container_local
#print axioms Verif.C38_defined
#print axioms Verif.C39_explicit
#print axioms Verif.C39_explicit_ok
#print axioms Verif.C39_explicit_object
#print axioms Verif.C40_universal_counterexample
#print axioms Verif.C40_implicit_partial
#print axioms Verif.C41_optional
#print axioms Verif.C41_optional_never_err
#print axioms Verif.C41_explicit_optional
#print axioms Verif.C42_class_counterexample
#print axioms Verif.C42_tag_number_partial
#print axioms Verif.C42_universal
#print axioms Verif.C43_iff_partial
#print axioms Verif.C43_empty_context_zero_counterexample
#print axioms Verif.C43_definite_indefinite_partial
#print axioms Verif.C43_any_partial
#print axioms Verif.C44_length_octets
#print axioms Verif.C44_minimal
#print axioms Verif.C44_parsed_back
#print axioms Verif.C45_header_round_trip
#print axioms Verif.C45_header_round_trip_der
#print axioms Verif.C45_large_tag_panics
#print axioms Verif.C45_primitive_indefinite_refused
#print axioms Verif.C46_serialize_parse
#print axioms Verif.C46_length_recomputed
#print axioms Verif.C46_serialize_parse_eq
#print axioms Verif.C46_iff
#print axioms Verif.C47_times_counterexample
#print axioms Verif.C47_stable_partial
#print axioms Verif.C47_panics_iff
#print axioms Verif.C47_iff_partial
#print axioms Verif.C47_times_conflict
#print axioms Verif.C48_explicit
#print axioms Verif.C48_implicit
#print axioms Verif.C49_exact
#print axioms Verif.C49_total
#print axioms Verif.C49_stored_lengths_ignored
#print axioms Verif.C49_framed
#print axioms Verif.C49_raw
#print axioms Verif.C50_ref_iter
#print axioms Verif.C50_index
#print axioms Verif.C50_index_panics
#print axioms Verif.C51_into_iter_partial
#print axioms Verif.C51_empty_sequence_counterexample
#print axioms Verif.C51_holds_iff
#print axioms Verif.C52_preorder
#print axioms Verif.C52_run
#print axioms Verif.C52_callback_of_type
#print axioms Verif.C52_callback_made
#print axioms Verif.C52_visits_nodes
#print axioms Verif.C52_depth_range
#print axioms Verif.C53_visits_partial
#print axioms Verif.C53_tagged_counterexample
#print axioms Verif.C53_optional_counterexample
#print axioms Verif.C54_read_only
#print axioms Verif.C54_run
#print axioms Verif.C54_logged
#print axioms Verif.C54_same_order
#print axioms Verif.C54_change_seen
#print axioms Verif.C54_new_children
#print axioms Verif.C54_growing_diverges
#print axioms Verif.C55_flags
#print axioms Verif.C55_initial
#print axioms Verif.C55_rest_unchanged
#print axioms Verif.C55_nested
#print axioms Verif.C56_universal_partial
#print axioms Verif.C56_class_ignored
#print axioms Verif.C56_indefinite_fails
#print axioms Verif.C56_class_counterexample
#print axioms Verif.C56_indefinite_counterexample
#print axioms Verif.C57_relative
#print axioms Verif.C57_absolute
#print axioms Verif.C57_absolute_accepted
#print axioms Verif.C57_canonical
#print axioms Verif.C57_exact
#print axioms Verif.C58_joint_iso_counterexample
#print axioms Verif.C58_high_arc_counterexample
#print axioms Verif.C58_accepted
#print axioms Verif.C58_rejected
#print axioms Verif.C58_arcs_partial
#print axioms Verif.C58_high_arc_malformed
#print axioms Verif.C59_container
#print axioms Verif.C59_defined
#print axioms Verif.C59_of_v
#print axioms Verif.C59_tagged_explicit
#print axioms Verif.C59_tagged_implicit
#print axioms Verif.C59_same_answers
#print axioms Verif.C59_errors_mapped
#print axioms Verif.C59_programs
#print axioms Verif.C60_tagged_counterexample
#print axioms Verif.C60_from_obj_header_partial
#print axioms Verif.C60_from_obj_round_trip
#print axioms Verif.C60_special
#print axioms Verif.C60_other_contents_not_round_trip
#print axioms Verif.C61_parse_ber_exact
#print axioms Verif.C61_parse_ber
#print axioms Verif.C61_parse_ber_with_tag
#print axioms Verif.C61_framed_strict
#print axioms Verif.C61_denotation_unique
#print axioms Verif.C62_nodes_from_input
#print axioms Verif.C62_nodes_reparse
#print axioms Verif.C63_parse_der_exact
#print axioms Verif.C63_parse_der_with_tag_exact
#print axioms Verif.C64_parse_ber_named
#print axioms Verif.C64_parse_der_named
#print axioms Verif.C64_other_tag
#print axioms Verif.C64_other_tag_der
#print axioms Verif.C64_types_disjoint
#print axioms Verif.C64_types_disjoint_der
#print axioms Verif.C65_accessors_ok
#print axioms Verif.C65_accessors_err
#print axioms Verif.C65_str_slice
#print axioms Verif.C66_not_transitive_counterexample
#print axioms Verif.C66_equality_partial
#print axioms Verif.C66_lengths_ignored
#print axioms Verif.C67_bitslice
#print axioms Verif.C67_bitslice_of_slice
#print axioms Verif.C68_tagged_counterexample
#print axioms Verif.C68_not_recursive_partial
#print axioms Verif.C68_elements_ignored_partial
#print axioms Verif.C69_layout
#print axioms Verif.C69_each_object_once
#print axioms Verif.C70_same_line_counterexample
#print axioms Verif.C70_line_starts_partial
#print axioms Verif.C71_bmp_text
#print axioms Verif.C71_bmp_error_partial
#print axioms Verif.C71_bmp_parsed
#print axioms Verif.C71_universal_text
#print axioms Verif.C71_universal_error_partial
#print axioms Verif.C71_bmp_cut
#print axioms Verif.C71_universal_exact
#print axioms Verif.C71_universal_cut_counterexample
#print axioms Verif.C71_universal_numbers
#print axioms Verif.C72_ber_unsigned_result
#print axioms Verif.C72_ber_signed_result
#print axioms Verif.C72_ber_unsigned
#print axioms Verif.C72_ber_signed
#print axioms Verif.C72_der_unsigned
#print axioms Verif.C72_der_signed
#print axioms Verif.C72_one_step_two_steps_signed
#print axioms Verif.C73_expansion
#print axioms Verif.C73_exact
#print axioms Verif.C73_refused
#print axioms Verif.C73_relative
#print axioms Verif.C73_absolute
#print axioms Verif.C73_unambiguous
#print axioms Verif.C74_repetition
#print axioms Verif.C74_container
#print axioms Verif.C74_container_not_called
#print axioms Verif.C74_defined
#print axioms Verif.C74_tagged_explicit
#print axioms Verif.C74_tagged_implicit
#print axioms Verif.C74_optional
#print axioms Verif.C74_of_v_ok
#print axioms Verif.C74_of_v
#print axioms Verif.C74_stateless
#print axioms Verif.C74_extra_call_counterexample
#print axioms Verif.C74_calls_partial
#print axioms Verif.C75_set_raw_tag
#print axioms Verif.C75_from_header_and_content
#print axioms Verif.C75_accessors
#print axioms Verif.C75_queries
#print axioms Verif.C75_asserts
#print axioms Verif.C75_parsed
#print axioms Verif.C75_parsed_nodes
#print axioms Verif.C75_of_content
#print axioms Verif.C75_of_oid
#print axioms Verif.C75_as_ref
#print axioms Verif.C76_size
#print axioms Verif.C76_count
#print axioms Verif.C76_depth
#print axioms Verif.C77_exact
#print axioms Verif.C77_main
#print axioms Verif.C77_nested
#print axioms Verif.C77_origin
#print axioms Verif.C77_linear
#print axioms Verif.C77_depth
#print axioms Verif.C77_depth_unlimited
#print axioms Verif.C78_same_results
#print axioms Verif.C78_parse_ber
#print axioms Verif.C78_parse_ber_with_tag
#print axioms Verif.C78_parse_der
#print axioms Verif.C78_parse_der_with_tag
#print axioms Verif.C78_nested_cost
#print axioms Verif.C79_as_u64
#print axioms Verif.C79_as_u32
#print axioms Verif.C79_as_u64_errors
#print axioms Verif.C79_as_u32_errors
#print axioms Verif.C79_integer_only
#print axioms Verif.C79_agree
#print axioms Verif.C79_parsed_enum
#print axioms Verif.C79_i32_i64_disagree
#print axioms Verif.C80_values_only
#print axioms Verif.C80_exact
#print axioms Verif.C80_replaced
#print axioms Verif.C80_run
#print axioms Verif.C80_fuel
#print axioms Verif.C80_edit_serialize_parse
#print axioms Verif.C80_parse_edit_integers
#print axioms Verif.C81_cut_answer
#print axioms Verif.C81_incomplete_iff
#print axioms Verif.C81_prefix_iff
#print axioms Verif.C81_every_cut
#print axioms Verif.C81_need_le
#print axioms Verif.C81_hopeless
#print axioms Verif.C82_read_stream
#print axioms Verif.C82_read_accepted
#print axioms Verif.C82_end_of_stream
#print axioms Verif.C82_no_tag_cut
#print axioms Verif.C82_tag_counterexample
#print axioms Verif.C83_fixed_iff_canonical
#print axioms Verif.C83_der_fixed_iff_canonical
#print axioms Verif.C83_unique
#print axioms Verif.C83_output_canonical
#print axioms Verif.C83_valid_der_changed_counterexample
#print axioms Verif.C83_accepted_not_canonical
#print axioms Verif.C84_rejected_iff
#print axioms Verif.C84_answers
#print axioms Verif.C84_complete
#print axioms Verif.C84_exclusive
#print axioms Verif.C84_member_cut
#print axioms Verif.C85_rejected_iff
#print axioms Verif.C85_incomplete_iff
#print axioms Verif.C85_answers
#print axioms Verif.C85_complete
#print axioms Verif.C85_need_whole
#print axioms Verif.C85_empty_bit_string
#print axioms Verif.C86_ber_rejected_iff
#print axioms Verif.C86_ber_incomplete_iff
#print axioms Verif.C86_der_rejected_iff
#print axioms Verif.C86_der_incomplete_iff
#print axioms Verif.C86_answers
#print axioms Verif.C86_oversize
#print axioms Verif.C87_ber_cover
#print axioms Verif.C87_ber_unframed
#print axioms Verif.C87_ber_unsigned
#print axioms Verif.C87_ber_signed
#print axioms Verif.C87_der_cover
#print axioms Verif.C87_der_unframed
#print axioms Verif.C87_der_unsigned
#print axioms Verif.C87_der_signed
#print axioms Verif.C88_unframed
#print axioms Verif.C88_cover
#print axioms Verif.C88_unique
#print axioms Verif.C88_items
#print axioms Verif.C88_items_exist
#print axioms Verif.C88_items_unique
#print axioms Verif.C88_of_v
#print axioms Verif.C88_of_v_bad_item
#print axioms Verif.C88_of_v_cut_item
#print axioms Verif.C88_g_unframed
#print axioms Verif.C88_object_versions
#print axioms Verif.C88_library_items
#print axioms Verif.C88_definite_cut
#print axioms Verif.C89_ber_ok
#print axioms Verif.C89_ber_rejected_iff
#print axioms Verif.C89_ber_incomplete_iff
#print axioms Verif.C89_der_ok
#print axioms Verif.C89_der_rejected_iff
#print axioms Verif.C89_der_incomplete_iff
#print axioms Verif.C89_answers
#print axioms Verif.C90_indefinite_counterexample
#print axioms Verif.C90_definite_partial
#print axioms Verif.C90_indefinite_refused
#print axioms Verif.C90_indefinite_waits
#print axioms Verif.C90_der
#print axioms Verif.C91_ok_iff
#print axioms Verif.C91_rejected_iff
#print axioms Verif.C91_incomplete_iff
#print axioms Verif.C91_answers
#print axioms Verif.C91_other_class
#print axioms Verif.C91_universal_agrees
#print axioms Verif.C92_raw_definite
#print axioms Verif.C92_raw_indefinite
#print axioms Verif.C92_raw_consistent
#print axioms Verif.C92_raw_panics
#print axioms Verif.C92_explicit_exact
#print axioms Verif.C92_implicit_exact
#print axioms Verif.C92_tagged_panics
#print axioms Verif.C92_tagged_content
#print axioms Verif.C92_optional_content
#print axioms Verif.C92_raw_indefinite_parsed
#print axioms Verif.C93_decimal
#print axioms Verif.C93_header
#print axioms Verif.C93_value
#print axioms Verif.C93_value_total
#print axioms Verif.C94_forged_counterexample
#print axioms Verif.C94_one_string_partial
#print axioms Verif.C94_values_partial
#print axioms Verif.C94_printable_safe_partial
#print axioms Verif.C95_parse_ber
#print axioms Verif.C95_parse_ber_with_tag
#print axioms Verif.C95_parse_der_with_tag
#print axioms Verif.C95_parse_der
#print axioms Verif.C96_exact
#print axioms Verif.C96_unique
#print axioms Verif.C96_rejected
#print axioms Verif.C96_of_optional
#print axioms Verif.C97_total
#print axioms Verif.C97_suffix
#print axioms Verif.C97_extension
#print axioms Verif.C97_optional_extension_counterexample
#print axioms Verif.C98_optional_counterexample
#print axioms Verif.C98_der_ber_partial
#print axioms Verif.C99_all_consuming
#print axioms Verif.C99_all_consuming_defined
#print axioms Verif.C99_all_consuming_rest
#print axioms Verif.C99_many1_exact
#print axioms Verif.C99_many1_refused
#print axioms Verif.C99_empty_counterexample
#print axioms Verif.C99_trailing_counterexample
#print axioms Verif.C99_same_partial
#print axioms Verif.C99_same_all_consuming
#print axioms Verif.C100_unique
#print axioms Verif.C100_file
#print axioms Verif.C100_program
#print axioms Verif.C101_lengths
#print axioms Verif.C101_extent
#print axioms Verif.C101_accepted_iff
#print axioms Verif.C101_rust_equal
#print axioms Verif.C102_accepted_partial
#print axioms Verif.C102_accepted_ber_partial
#print axioms Verif.C102_t61_counterexample
#print axioms Verif.C102_enumerated_counterexample
#print axioms Verif.C102_tag_counterexample
#print axioms Verif.C102_depth_counterexample
#print axioms Verif.C102_full_counterexample
#print axioms Verif.C102_exact
#print axioms Verif.C102_exact_ber
#print axioms Verif.C103_reproduced_partial
#print axioms Verif.C103_unique_partial
#print axioms Verif.C103_enumerated_counterexample
#print axioms Verif.C103_tag_counterexample
#print axioms Verif.C103_full_counterexample
#print axioms Verif.C103_exact
#print axioms Verif.C104_iff
#print axioms Verif.C104_verbatim
#print axioms Verif.C104_der_iff
#print axioms Verif.C105_ber_partial
#print axioms Verif.C105_der_partial
#print axioms Verif.C105_ber_typed_partial
#print axioms Verif.C105_der_typed_partial
#print axioms Verif.C105_accepted_later
#print axioms Verif.C105_counterexample
#print axioms Verif.C106_faults_partial
#print axioms Verif.C106_ber_faults
#print axioms Verif.C106_outer_counterexample
#print axioms Verif.C106_inner_counterexample
#print axioms Verif.C106_full_counterexample
#print axioms Verif.C107_ber_members
#print axioms Verif.C107_der_members
#print axioms Verif.C107_ber_permuted
#print axioms Verif.C107_der_permuted_partial
#print axioms Verif.C107_not_ordered
#print axioms Verif.C107_full_counterexample
#print axioms Verif.C108_written_read
#print axioms Verif.C108_exact_partial
#print axioms Verif.C108_fits_partial
#print axioms Verif.C108_reread_partial
#print axioms Verif.C108_absent_counterexample
#print axioms Verif.C108_full_counterexample
#print axioms Verif.C109_exact
#print axioms Verif.C109_cover
#print axioms Verif.C109_unique
#print axioms Verif.C109_failure
#print axioms Verif.C110_fixed
#print axioms Verif.C110_counterexample
#print axioms Verif.C110_exact_partial
#print axioms Verif.C110_partial
#print axioms Verif.C111_exact_partial
#print axioms Verif.C111_checked
#print axioms Verif.C111_unchecked
#print axioms Verif.C111_counterexample
#print axioms Verif.C111_ref_iter
#print axioms Verif.C111_ref_iter_wraps
#print axioms Verif.C111_ref_iter_panics
#print axioms Verif.C111_into_iter
#print axioms Verif.C111_visit
#print axioms Verif.C111_visit_wraps
#print axioms Verif.C111_visit_panics
#print axioms Verif.C111_visit_parsed
#print axioms Verif.C111_encode_length
#print axioms Verif.C112_same_results
#print axioms Verif.C112_same_results_objects
#print axioms Verif.C112_parsers
#print axioms Verif.C112_parsers_attained
#print axioms Verif.C112_parse_ber_accepted
#print axioms Verif.C112_parse_ber_limited
#print axioms Verif.C112_visit
#print axioms Verif.C112_objects
#print axioms Verif.C112_objects_exact
#print axioms Verif.C112_encode_exact
#print axioms Verif.C112_print_exact
#print axioms Verif.C112_integer
#print axioms Verif.C112_not_integer
#print axioms Verif.C112_integer_minimal
#print axioms Verif.C112_bounded_partial
#print axioms Verif.C112_counterexample
#print axioms Verif.C112_not_statement
#print axioms Verif.C112_der_top
#print axioms Verif.C112_der_counterexample
#print axioms Verif.C113_buffer
#print axioms Verif.C113_two_writes
#print axioms Verif.C113_writes
#print axioms Verif.C113_vec
#print axioms Verif.C113_bounded
#print axioms Verif.C113_counterexample
#print axioms Verif.C113_not_statement
#print axioms Verif.C113_partial
#print axioms Verif.C114_prefix
#print axioms Verif.C114_stops
#print axioms Verif.C114_panics
#print axioms Verif.C114_width_counterexample
#print axioms Verif.C114_overflow_counterexample
#print axioms Verif.C114_not_statement
#print axioms Verif.C114_partial
#print axioms Verif.C115_program
#print axioms Verif.C115_program_row
#print axioms Verif.C115_program_unique
#print axioms Verif.C115_prefix_free
#print axioms Verif.C115_row
#print axioms Verif.C115_unique
#print axioms Verif.C115_ber_unique
#print axioms Verif.C115_written
#print axioms Verif.C115_stream
#print axioms Verif.C116_der
#print axioms Verif.C116_ber
#print axioms Verif.C116_ber_cut
#print axioms Verif.C116_der_cut
#print axioms Verif.C116_too_long
#print axioms Verif.C116_conditions
#print axioms Verif.C117_my_object
#print axioms Verif.C117_my_object_container
#print axioms Verif.C117_my_object_other_tag
#print axioms Verif.C117_my_object_total
#print axioms Verif.C117_explicit
#print axioms Verif.C117_explicit_g
#print axioms Verif.C117_explicit_range
#print axioms Verif.C117_explicit_agree
#print axioms Verif.C117_implicit
#print axioms Verif.C117_implicit_g
#print axioms Verif.C117_implicit_range
#print axioms Verif.C117_implicit_agree
#print axioms Verif.C117_implicit_octets
#print axioms Verif.C117_tagged_total
#print axioms Verif.C117_struct01
#print axioms Verif.C117_struct01_complete
#print axioms Verif.C117_struct01_garbage
#print axioms Verif.C117_struct04
#print axioms Verif.C117_struct_total
#print axioms Verif.C117_name
#print axioms Verif.C117_name_never_refused
#print axioms Verif.C118_total
#print axioms Verif.C118_suffix
#print axioms Verif.C118_local
#print axioms Verif.C118_local_counterexample
#print axioms Verif.C118_composed
#print axioms Verif.C118_my_object
#print axioms Verif.C118_name
#print axioms Verif.C118_several
#print axioms Verif.C118_defined
#print axioms Verif.C118_attempt_opt
#print axioms Verif.C119_accepts
#print axioms Verif.C119_refuses
#print axioms Verif.C119_cover
#print axioms Verif.C119_wrapped
#print axioms Verif.C120_ber_codes
#print axioms Verif.C120_der_codes
#print axioms Verif.C120_typed_codes
#print axioms Verif.C120_content_codes
#print axioms Verif.C120_container_codes
#print axioms Verif.C120_never
#print axioms Verif.C120_codes_occur
#print axioms Verif.C120_culprit
#print axioms Verif.C120_der_culprit
#print axioms Verif.C120_invalid_tag
#print axioms Verif.C120_indefinite_is_constructed
#print axioms Verif.C120_indefinite_to_closure
#print axioms Verif.C120_indefinite_primitive
#print axioms Verif.C120_private
#print axioms Verif.C120_depth_zero
#print axioms Verif.C120_der_indefinite_counterexample
#print axioms Verif.C120_not_statement
#print axioms Verif.C120_der_indefinite_partial
#print axioms Verif.C120_unexpected_tag
#print axioms Verif.C120_integer_too_large
#print axioms Verif.C121_accepted_partial
#print axioms Verif.C121_der_is_ber
#print axioms Verif.C121_segments_counterexample
#print axioms Verif.C121_empty_zero_counterexample
#print axioms Verif.C121_limits_counterexample
#print axioms Verif.C121_full_counterexample
#print axioms Verif.C121_exact
#print axioms Verif.C121_indefinite_nesting
#print axioms Verif.C122_faults_partial
#print axioms Verif.C122_contents_counterexample
#print axioms Verif.C122_forms_counterexample
#print axioms Verif.C122_misread_counterexample
#print axioms Verif.C122_full_counterexample
#print axioms Verif.C123_value_partial
#print axioms Verif.C123_der_partial
#print axioms Verif.C123_segments_counterexample
#print axioms Verif.C123_enumerated_counterexample
#print axioms Verif.C123_full_counterexample
#print axioms Verif.C123_one_value
#print axioms Verif.C123_is_ber
#print axioms Verif.C123_every_document
#print axioms Verif.C123_unambiguous
#print axioms Verif.C124_rewritten_partial
#print axioms Verif.C124_enumerated_counterexample
#print axioms Verif.C124_full_counterexample
#print axioms Verif.C125_written_partial
#print axioms Verif.C125_every_encoding_partial
#print axioms Verif.C125_one_encoding_partial
#print axioms Verif.C125_is_der
#print axioms Verif.C125_read_back_partial
#print axioms Verif.C125_read_back_der_partial
#print axioms Verif.C125_enumerated
#print axioms Verif.C125_times
#print axioms Verif.C125_enumerated_counterexample
#print axioms Verif.C125_full_counterexample
#print axioms Verif.C126_truncated
#print axioms Verif.C126_prefix_free
#print axioms Verif.C126_streaming
#print axioms Verif.C126_read
#print axioms Verif.C126_read_from
#print axioms Verif.C126_hint
#print axioms Verif.C126_container
#print axioms Verif.C126_indefinite
#print axioms Verif.C126_container_counterexample
#print axioms Verif.C126_chunk_counterexample
#print axioms Verif.C126_absence_counterexample
#print axioms Verif.C127_one_value
#print axioms Verif.C127_one_encoded_partial
#print axioms Verif.C127_values_partial
#print axioms Verif.C127_required_partial
#print axioms Verif.C127_class_counterexample
#print axioms Verif.C127_full_counterexample
#print axioms Verif.C127_set_order_counterexample
#print axioms Verif.C128_written_partial
#print axioms Verif.C128_read_back_partial
#print axioms Verif.C128_tagged_partial
#print axioms Verif.C128_enumerated_counterexample
#print axioms Verif.C128_full_counterexample
#print axioms Verif.C128_read_back_counterexample
#print axioms Verif.C129_same_results
#print axioms Verif.C129_linear
#print axioms Verif.C129_consumed
#print axioms Verif.C129_optional_reads
#print axioms Verif.C130_same_results
#print axioms Verif.C130_exact
#print axioms Verif.C130_height
#print axioms Verif.C130_parsed
#print axioms Verif.C130_quadratic
#print axioms Verif.C131_parse_ber
#print axioms Verif.C131_parse_ber_with_tag
#print axioms Verif.C131_parse_der_with_tag
#print axioms Verif.C131_parse_der
#print axioms Verif.C131_quadratic
#print axioms Verif.C132_alternative
#print axioms Verif.C132_determined
#print axioms Verif.C132_ends
#print axioms Verif.C132_forever
#print axioms Verif.C132_returns
#print axioms Verif.C132_model
#print axioms Verif.C132_no_longer
#print axioms Verif.C132_of_v
#print axioms Verif.C132_fuel_counterexample
#print axioms Verif.C133_reread
#print axioms Verif.C133_utctime_lost
#print axioms Verif.C133_der_utctime_lost
#print axioms Verif.C133_generalized
#print axioms Verif.C133_survives_iff
#print axioms Verif.C133_library
#print axioms Verif.C133_calendar_times
#print axioms Verif.C133_calendar_errors
#print axioms Verif.C133_calendar_zones
#print axioms Verif.C133_calendar_fractions
#print axioms Verif.C133_calendar_no_seconds
#print axioms Verif.C134_refines
#print axioms Verif.C134_placed
#print axioms Verif.C134_parse_placed
#print axioms Verif.C134_returns
#print axioms Verif.C134_slices
#print axioms Verif.C134_zero_copy
#print axioms Verif.C134_moved
#print axioms Verif.C134_container
#print axioms Verif.C134_container_refines
#print axioms Verif.C135_word64
#print axioms Verif.C135_answers
#print axioms Verif.C135_with_tag
#print axioms Verif.C135_accepts
#print axioms Verif.C135_returns
#print axioms Verif.C135_with_tag_returns
#print axioms Verif.C135_with_tag_accepts
#print axioms Verif.C135_differ
#print axioms Verif.C135_differ_inside
#print axioms Verif.C135_differ_tag
#print axioms Verif.C135_differ_depth
#print axioms Verif.C135_optional_differs
#print axioms Verif.C136_not_longer
#print axioms Verif.C136_bound
#print axioms Verif.C136_factor
#print axioms Verif.C136_times
#print axioms Verif.C136_small
#print axioms Verif.C136_eoc_grows
#print axioms Verif.C136_time_grows
#print axioms Verif.C136_indefinite_grows
#print axioms Verif.C137_sum
#print axioms Verif.C137_linear
#print axioms Verif.C137_parse_ber
#print axioms Verif.C137_quadratic
#print axioms Verif.C138_word64
#print axioms Verif.C138_answers
#print axioms Verif.C138_accepts
#print axioms Verif.C138_kind
#print axioms Verif.C138_composed
#print axioms Verif.C138_name
#print axioms Verif.C138_header_differs
#print axioms Verif.C138_kind_differs
#print axioms Verif.C138_several_differs
#print axioms Verif.C138_within_differs
#print axioms Verif.C139_refines
#print axioms Verif.C139_returns
#print axioms Verif.C139_placed
#print axioms Verif.C139_slices
#print axioms Verif.C139_zero_copy
#print axioms Verif.C139_moved
#print axioms Verif.C139_header_lost
#print axioms Verif.C140_success
#print axioms Verif.C140_every_call
#print axioms Verif.C140_empty
#print axioms Verif.C141_same_results
#print axioms Verif.C141_nesting
#print axioms Verif.C141_no_deeper
#print axioms Verif.C141_ends
#print axioms Verif.C141_endless
#print axioms Verif.C141_values
#print axioms Verif.C141_parsed
#print axioms Verif.C141_parsed_der
#print axioms Verif.C141_der_limit_zero
#print axioms Verif.C142_refines
#print axioms Verif.C142_refines_members
#print axioms Verif.C142_lends
#print axioms Verif.C142_as_slice
#print axioms Verif.C142_contents
#print axioms Verif.C142_members
#print axioms Verif.C142_leads
#print axioms Verif.C142_input
#print axioms Verif.C142_input_parse
#print axioms Verif.C142_elements
#print axioms Verif.C142_slice
#print axioms Verif.C142_slice_refines
#print axioms Verif.C142_moved
#print axioms Verif.C142_bit_string
#print axioms Verif.C143_same_results
#print axioms Verif.C143_window
#print axioms Verif.C143_parse_ber
#print axioms Verif.C143_parse_ber_with_tag
#print axioms Verif.C143_parse_der
#print axioms Verif.C143_parse_der_with_tag
#print axioms Verif.C143_at_least
#print axioms Verif.C143_der_checks
#print axioms Verif.C143_conversions
#print axioms Verif.C143_typed_conversions
#print axioms Verif.C143_nested_octets
#print axioms Verif.C144_same_results
#print axioms Verif.C144_linear
#print axioms Verif.C144_consumed
#print axioms Verif.C144_at_least
#print axioms Verif.C144_optional_octets
#print axioms Verif.C145_same_results
#print axioms Verif.C145_quadratic
#print axioms Verif.C145_definite
#print axioms Verif.C145_indefinite
#print axioms Verif.C145_der_same_results
#print axioms Verif.C145_der
#print axioms Verif.C145_der_calls
#print axioms Verif.C145_der_five
#print axioms Verif.C145_der_typed
#print axioms Verif.C145_ber_calls_counterexample
#print axioms Verif.C145_der_stream
#print axioms Verif.C145_ber_typed
