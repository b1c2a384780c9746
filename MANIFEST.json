{
 "claims": [
  {
   "property": "C01",
   "status": "proved",
   "theorems": [
    "Verif.C01_parse_ber_total",
    "Verif.C01_parse_ber_recursive_total",
    "Verif.C01_parse_ber_any_with_tag_total",
    "Verif.C01_parse_ber_any_total",
    "Verif.C01_header_and_content_total"
   ],
   "note": ""
  },
  {
   "property": "C02",
   "status": "proved",
   "theorems": [
    "Verif.C02_parse_der_total",
    "Verif.C02_parse_der_recursive_total",
    "Verif.C02_der_read_element_total"
   ],
   "note": ""
  },
  {
   "property": "C03",
   "status": "proved",
   "theorems": [
    "Verif.C03_content_parsers_total",
    "Verif.C03_typed_parsers_total",
    "Verif.C03_native_integers_total",
    "Verif.C03_slice_total",
    "Verif.C03_try_from_any_total"
   ],
   "note": ""
  },
  {
   "property": "C04",
   "status": "partial",
   "theorems": [
    "Verif.C04_container_total",
    "Verif.C04_defined_total",
    "Verif.C04_of_v_total_partial",
    "Verif.C04_of_v_longer_remainder_counterexample",
    "Verif.C04_full_counterexample",
    "Verif.C04_tagged_explicit_g_total",
    "Verif.C04_tagged_implicit_g_total",
    "Verif.C04_object_combinators_total_partial",
    "Verif.C04_tagged_objects_total",
    "Verif.C04_optional_total"
   ],
   "note": "False without a condition on the closure: one that returns a remainder longer than its input makes the repetition loop forever (C04_of_v_longer_remainder_counterexample). Proved for closures that never return a longer remainder; the other combinators need no condition. C132 says for every closure exactly when the repetition ends, and with which answer."
  },
  {
   "property": "C05",
   "status": "proved",
   "theorems": [
    "Verif.C05_parse_ber_strict_suffix",
    "Verif.C05_parse_ber_any_strict_suffix",
    "Verif.C05_parse_der_strict_suffix",
    "Verif.C05_typed_strict_suffix",
    "Verif.C05_container_strict_suffix"
   ],
   "note": ""
  },
  {
   "property": "C06",
   "status": "proved",
   "theorems": [
    "Verif.C06_parse_ber_any_definite",
    "Verif.C06_parse_ber_definite",
    "Verif.C06_parse_der_definite",
    "Verif.C06_container_definite",
    "Verif.C06_slice_definite"
   ],
   "note": ""
  },
  {
   "property": "C07",
   "status": "proved",
   "theorems": [
    "Verif.C07_ber_header_grammar",
    "Verif.C07_der_header_grammar",
    "Verif.C07_header_unambiguous"
   ],
   "note": ""
  },
  {
   "property": "C08",
   "status": "partial",
   "theorems": [
    "Verif.C08_tag_number_wraps_counterexample",
    "Verif.C08_parse_ber_wraps_counterexample",
    "Verif.C08_same_tag_iff",
    "Verif.C08_tag_numbers_distinct_partial"
   ],
   "note": "False: tag numbers of 2^32 and above wrap (counterexamples). Proved: tags are equal exactly when the numbers agree modulo 2^32, so numbers below 2^32 are distinct."
  },
  {
   "property": "C09",
   "status": "partial",
   "theorems": [
    "Verif.C09_empty_context_zero_counterexample",
    "Verif.C09_indefinite_content_partial",
    "Verif.C09_parse_ber_any_indefinite_partial",
    "Verif.C09_other_terminator_counterexample",
    "Verif.C09_stray_octet_counterexample",
    "Verif.C09_converse_partial"
   ],
   "note": "False as stated: an empty context-specific [0] ends the contents, and other spellings of the terminator are accepted. Proved for contents without such elements, and the converse for the language with the terminators the code accepts."
  },
  {
   "property": "C10",
   "status": "proved",
   "theorems": [
    "Verif.C10_parse_ber_extension",
    "Verif.C10_parse_ber_any_extension",
    "Verif.C10_parse_ber_any_with_tag_extension",
    "Verif.C10_parse_der_extension",
    "Verif.C10_typed_extension",
    "Verif.C10_native_integers_extension",
    "Verif.C10_container_extension"
   ],
   "note": ""
  },
  {
   "property": "C11",
   "status": "partial",
   "theorems": [
    "Verif.C11_truncated_tag_counterexample",
    "Verif.C11_container_counterexample",
    "Verif.C11_parse_ber_truncation_partial",
    "Verif.C11_parse_der_truncation_partial",
    "Verif.C11_parse_ber_with_tag_truncation_partial",
    "Verif.C11_parse_der_with_tag_truncation_partial"
   ],
   "note": "False for input cut inside a multi-octet tag (InvalidTag) and for container parsers (Eof). Proved for every other cut; the exact answer to every cut is C81."
  },
  {
   "property": "C12",
   "status": "partial",
   "theorems": [
    "Verif.C12_parse_ber_hint",
    "Verif.C12_any_and_integers_hint",
    "Verif.C12_overestimate_counterexample",
    "Verif.C12_der_and_typed_hint_partial"
   ],
   "note": "parse_ber: exact hint proved. False for typed and DER parsers, whose hint is the whole contents length; proved that this is what it is."
  },
  {
   "property": "C13",
   "status": "proved",
   "theorems": [
    "Verif.C13_depth_exact",
    "Verif.C13_parse_ber_limit",
    "Verif.C13_with_tag_depth_exact"
   ],
   "note": ""
  },
  {
   "property": "C14",
   "status": "proved",
   "theorems": [
    "Verif.C14_indefinite_nesting",
    "Verif.C14_accepted_bounded",
    "Verif.C14_nest_sharp",
    "Verif.C14_raise_limit"
   ],
   "note": ""
  },
  {
   "property": "C15",
   "status": "partial",
   "theorems": [
    "Verif.C15_parse_ber_counterexample",
    "Verif.C15_parse_ber_accepts_large_counterexample",
    "Verif.C15_typed_der_and_container_counterexample",
    "Verif.C15_parse_der_partial",
    "Verif.C15_parse_ber_with_tag_partial"
   ],
   "note": "False for parse_ber, typed DER parsers and container combinators (counterexamples). Proved for parse_der and parse_ber_with_tag; the answers of the four readers in C86_oversize."
  },
  {
   "property": "C16",
   "status": "partial",
   "theorems": [
    "Verif.C16_class_counterexample",
    "Verif.C16_parse_ber_bool_partial",
    "Verif.C16_parse_ber_bool_element",
    "Verif.C16_parse_der_bool_partial"
   ],
   "note": "False for elements of other classes or in constructed form. Proved: exact characterisation by tag number and contents octets."
  },
  {
   "property": "C17",
   "status": "proved",
   "theorems": [
    "Verif.C17_as_u64_exact",
    "Verif.C17_as_u32_exact",
    "Verif.C17_as_u64_ok_iff",
    "Verif.C17_array_size",
    "Verif.C17_leading_zeroes"
   ],
   "note": ""
  },
  {
   "property": "C18",
   "status": "partial",
   "theorems": [
    "Verif.C18_positive_read_as_negative_counterexample",
    "Verif.C18_padded_negative_counterexample",
    "Verif.C18_as_i64_partial",
    "Verif.C18_as_i32_partial",
    "Verif.C18_short_content_partial"
   ],
   "note": "False for nine-octet encodings of 2^63..2^64-1 and for redundant leading ff octets. Proved: exact result for every contents string, in terms of the two's complement value, outside these cases."
  },
  {
   "property": "C19",
   "status": "partial",
   "theorems": [
    "Verif.C19_one_step_two_steps_partial",
    "Verif.C19_two_steps_imply_one_step",
    "Verif.C19_large_object_counterexample"
   ],
   "note": "False for contents above MAX_OBJECT_SIZE, which parse_ber_integer refuses. Proved for all others."
  },
  {
   "property": "C20",
   "status": "proved",
   "theorems": [
    "Verif.C20_as_bigint_exact",
    "Verif.C20_as_biguint_exact",
    "Verif.C20_not_integer"
   ],
   "note": ""
  },
  {
   "property": "C21",
   "status": "proved",
   "theorems": [
    "Verif.C21_as_u64_bitstring",
    "Verif.C21_as_u32_bitstring",
    "Verif.C21_fits"
   ],
   "note": ""
  },
  {
   "property": "C22",
   "status": "proved",
   "theorems": [
    "Verif.C22_is_set",
    "Verif.C22_past_end"
   ],
   "note": ""
  },
  {
   "property": "C23",
   "status": "proved",
   "theorems": [
    "Verif.C23_enumerated",
    "Verif.C23_enumerated_with_tag",
    "Verif.C23_leading_zeroes"
   ],
   "note": ""
  },
  {
   "property": "C24",
   "status": "proved",
   "theorems": [
    "Verif.C24_strings",
    "Verif.C24_accept_iff"
   ],
   "note": ""
  },
  {
   "property": "C25",
   "status": "proved",
   "theorems": [
    "Verif.C25_bmp_accept_iff",
    "Verif.C25_even",
    "Verif.C25_surrogates",
    "Verif.C25_bmp_verbatim"
   ],
   "note": ""
  },
  {
   "property": "C26",
   "status": "proved",
   "theorems": [
    "Verif.C26_verbatim",
    "Verif.C26_accessors",
    "Verif.C26_slices"
   ],
   "note": ""
  },
  {
   "property": "C27",
   "status": "proved",
   "theorems": [
    "Verif.C27_parse_ber",
    "Verif.C27_parse_der",
    "Verif.C27_variant_unique"
   ],
   "note": ""
  },
  {
   "property": "C28",
   "status": "proved",
   "theorems": [
    "Verif.C28_der_bool",
    "Verif.C28_der_bool_refused"
   ],
   "note": ""
  },
  {
   "property": "C29",
   "status": "partial",
   "theorems": [
    "Verif.C29_leading_ones_counterexample",
    "Verif.C29_der_integer_partial",
    "Verif.C29_accepted",
    "Verif.C29_der_native"
   ],
   "note": "False: redundant leading ff octets are accepted. Proved: exact set of contents accepted."
  },
  {
   "property": "C30",
   "status": "partial",
   "theorems": [
    "Verif.C30_no_data_counterexample",
    "Verif.C30_der_bitstring_partial",
    "Verif.C30_accepted"
   ],
   "note": "False: unused bits without data octets are accepted. Proved: exact set of contents accepted."
  },
  {
   "property": "C31",
   "status": "proved",
   "theorems": [
    "Verif.C31_der_times",
    "Verif.C31_der_times_refused"
   ],
   "note": ""
  },
  {
   "property": "C32",
   "status": "proved",
   "theorems": [
    "Verif.C32_der_primitive",
    "Verif.C32_constructed_refused"
   ],
   "note": ""
  },
  {
   "property": "C33",
   "status": "proved",
   "theorems": [
    "Verif.C33_indefinite_refused",
    "Verif.C33_indefinite_refused_combinators",
    "Verif.C33_indefinite_refused_objects",
    "Verif.C33_optional_implicit_counterexample"
   ],
   "note": "parse_der, parse_der_with_tag and all combinators of der/multi.rs and der/tagged.rs. parse_der_explicit_optional and parse_der_implicit (der/parser.rs) are BER combinators under a DER name and accept indefinite lengths: C33_optional_implicit_counterexample."
  },
  {
   "property": "C34",
   "status": "partial",
   "theorems": [
    "Verif.C34_nested_counterexample",
    "Verif.C34_outermost_partial"
   ],
   "note": "False: nested elements are read with BER rules. Proved for the outermost element."
  },
  {
   "property": "C35",
   "status": "partial",
   "theorems": [
    "Verif.C35_length_octets_counterexample",
    "Verif.C35_same_contents_partial"
   ],
   "note": "False: non-minimal length octets, among others. Proved: equal results have equal contents octets for the outermost element of the types listed; unique encodings among the canonical ones are C83."
  },
  {
   "property": "C36",
   "status": "partial",
   "theorems": [
    "Verif.C36_depth_zero_counterexample",
    "Verif.C36_parse_der_partial",
    "Verif.C36_with_tag_partial",
    "Verif.C36_large_bitstring_counterexample"
   ],
   "note": "False for depth limit 0 and for BIT STRING contents above MAX_OBJECT_SIZE. Proved otherwise."
  },
  {
   "property": "C37",
   "status": "partial",
   "theorems": [
    "Verif.C37_empty_error_counterexample",
    "Verif.C37_of_v_partial",
    "Verif.C37_pieces",
    "Verif.C37_library_parsers_empty",
    "Verif.C37_object_versions_partial"
   ],
   "note": "False: a closure error on empty contents becomes Failure. Proved: all results, for every closure, outside that case."
  },
  {
   "property": "C38",
   "status": "proved",
   "theorems": [
    "Verif.C38_container",
    "Verif.C38_container_ok",
    "Verif.C38_container_not_run",
    "Verif.C38_container_local",
    "Verif.C38_defined"
   ],
   "note": ""
  },
  {
   "property": "C39",
   "status": "proved",
   "theorems": [
    "Verif.C39_explicit",
    "Verif.C39_explicit_ok",
    "Verif.C39_explicit_object"
   ],
   "note": ""
  },
  {
   "property": "C40",
   "status": "partial",
   "theorems": [
    "Verif.C40_universal_counterexample",
    "Verif.C40_implicit_partial"
   ],
   "note": "False: the class of the element is not looked at. Proved: result for every closure in terms of tag number."
  },
  {
   "property": "C41",
   "status": "proved",
   "theorems": [
    "Verif.C41_optional",
    "Verif.C41_optional_never_err",
    "Verif.C41_explicit_optional"
   ],
   "note": ""
  },
  {
   "property": "C42",
   "status": "partial",
   "theorems": [
    "Verif.C42_class_counterexample",
    "Verif.C42_tag_number_partial",
    "Verif.C42_universal"
   ],
   "note": "False: class is not checked. Proved for the tag number."
  },
  {
   "property": "C43",
   "status": "partial",
   "theorems": [
    "Verif.C43_iff_partial",
    "Verif.C43_empty_context_zero_counterexample",
    "Verif.C43_definite_indefinite_partial",
    "Verif.C43_any_partial"
   ],
   "note": "False for contents with an element that looks like end-of-contents. Proved for all others. C43_iff_partial says exactly when it holds."
  },
  {
   "property": "C44",
   "status": "proved",
   "theorems": [
    "Verif.C44_length_octets",
    "Verif.C44_minimal",
    "Verif.C44_parsed_back"
   ],
   "note": ""
  },
  {
   "property": "C45",
   "status": "proved",
   "theorems": [
    "Verif.C45_header_round_trip",
    "Verif.C45_header_round_trip_der",
    "Verif.C45_large_tag_panics",
    "Verif.C45_primitive_indefinite_refused"
   ],
   "note": ""
  },
  {
   "property": "C46",
   "status": "proved",
   "theorems": [
    "Verif.C46_serialize_parse",
    "Verif.C46_length_recomputed",
    "Verif.C46_serialize_parse_eq",
    "Verif.C46_iff"
   ],
   "note": ""
  },
  {
   "property": "C47",
   "status": "partial",
   "theorems": [
    "Verif.C47_times_counterexample",
    "Verif.C47_stable_partial",
    "Verif.C47_panics_iff",
    "Verif.C47_iff_partial",
    "Verif.C47_times_conflict"
   ],
   "note": "False for times: UTCTime and GeneralizedTime are written by one function, so a time readable in both forms is lost in one of them (C47_times_conflict, for every date library). Proved exactly: what was read survives precisely if every time in it is read back from its written form."
  },
  {
   "property": "C48",
   "status": "proved",
   "theorems": [
    "Verif.C48_explicit",
    "Verif.C48_implicit"
   ],
   "note": ""
  },
  {
   "property": "C49",
   "status": "proved",
   "theorems": [
    "Verif.C49_exact",
    "Verif.C49_total",
    "Verif.C49_stored_lengths_ignored",
    "Verif.C49_framed",
    "Verif.C49_raw"
   ],
   "note": ""
  },
  {
   "property": "C50",
   "status": "proved",
   "theorems": [
    "Verif.C50_ref_iter",
    "Verif.C50_index",
    "Verif.C50_index_panics"
   ],
   "note": ""
  },
  {
   "property": "C51",
   "status": "partial",
   "theorems": [
    "Verif.C51_into_iter_partial",
    "Verif.C51_empty_sequence_counterexample",
    "Verif.C51_holds_iff"
   ],
   "note": "False for empty SEQUENCE/SET, which yield themselves. Proved for all other objects."
  },
  {
   "property": "C52",
   "status": "proved",
   "theorems": [
    "Verif.C52_preorder",
    "Verif.C52_run",
    "Verif.C52_callback_of_type",
    "Verif.C52_callback_made",
    "Verif.C52_visits_nodes",
    "Verif.C52_depth_range"
   ],
   "note": ""
  },
  {
   "property": "C53",
   "status": "partial",
   "theorems": [
    "Verif.C53_visits_partial",
    "Verif.C53_tagged_counterexample",
    "Verif.C53_optional_counterexample"
   ],
   "note": "False: children of Tagged and Optional are not visited. Proved: the exact list of visited objects."
  },
  {
   "property": "C54",
   "status": "proved",
   "theorems": [
    "Verif.C54_read_only",
    "Verif.C54_run",
    "Verif.C54_logged",
    "Verif.C54_same_order",
    "Verif.C54_change_seen",
    "Verif.C54_new_children",
    "Verif.C54_growing_diverges"
   ],
   "note": ""
  },
  {
   "property": "C55",
   "status": "proved",
   "theorems": [
    "Verif.C55_flags",
    "Verif.C55_initial",
    "Verif.C55_rest_unchanged",
    "Verif.C55_nested"
   ],
   "note": ""
  },
  {
   "property": "C56",
   "status": "partial",
   "theorems": [
    "Verif.C56_universal_partial",
    "Verif.C56_class_ignored",
    "Verif.C56_indefinite_fails",
    "Verif.C56_class_counterexample",
    "Verif.C56_indefinite_counterexample"
   ],
   "note": "False for other classes and for indefinite lengths. Proved for definite lengths of universal class."
  },
  {
   "property": "C57",
   "status": "proved",
   "theorems": [
    "Verif.C57_relative",
    "Verif.C57_absolute",
    "Verif.C57_absolute_accepted",
    "Verif.C57_canonical",
    "Verif.C57_exact"
   ],
   "note": ""
  },
  {
   "property": "C58",
   "status": "partial",
   "theorems": [
    "Verif.C58_joint_iso_counterexample",
    "Verif.C58_high_arc_counterexample",
    "Verif.C58_accepted",
    "Verif.C58_rejected",
    "Verif.C58_arcs_partial",
    "Verif.C58_high_arc_malformed"
   ],
   "note": "False for second arcs of 40 and above under 2 and for first arcs above 2. Proved for all arcs otherwise."
  },
  {
   "property": "C59",
   "status": "proved",
   "theorems": [
    "Verif.C59_container",
    "Verif.C59_defined",
    "Verif.C59_of_v",
    "Verif.C59_tagged_explicit",
    "Verif.C59_tagged_implicit",
    "Verif.C59_same_answers",
    "Verif.C59_errors_mapped",
    "Verif.C59_programs"
   ],
   "note": ""
  },
  {
   "property": "C60",
   "status": "partial",
   "theorems": [
    "Verif.C60_tagged_counterexample",
    "Verif.C60_from_obj_header_partial",
    "Verif.C60_from_obj_round_trip",
    "Verif.C60_special",
    "Verif.C60_other_contents_not_round_trip"
   ],
   "note": "False for Tagged. Proved for all other contents."
  },
  {
   "property": "C61",
   "status": "proved",
   "theorems": [
    "Verif.C61_parse_ber_exact",
    "Verif.C61_parse_ber",
    "Verif.C61_parse_ber_with_tag",
    "Verif.C61_framed_strict",
    "Verif.C61_denotation_unique"
   ],
   "note": ""
  },
  {
   "property": "C62",
   "status": "proved",
   "theorems": [
    "Verif.C62_nodes_from_input",
    "Verif.C62_nodes_reparse"
   ],
   "note": ""
  },
  {
   "property": "C63",
   "status": "proved",
   "theorems": [
    "Verif.C63_parse_der_exact",
    "Verif.C63_parse_der_with_tag_exact"
   ],
   "note": ""
  },
  {
   "property": "C64",
   "status": "proved",
   "theorems": [
    "Verif.C64_parse_ber_named",
    "Verif.C64_parse_der_named",
    "Verif.C64_other_tag",
    "Verif.C64_other_tag_der",
    "Verif.C64_types_disjoint",
    "Verif.C64_types_disjoint_der"
   ],
   "note": ""
  },
  {
   "property": "C65",
   "status": "proved",
   "theorems": [
    "Verif.C65_accessors_ok",
    "Verif.C65_accessors_err",
    "Verif.C65_str_slice"
   ],
   "note": ""
  },
  {
   "property": "C66",
   "status": "partial",
   "theorems": [
    "Verif.C66_not_transitive_counterexample",
    "Verif.C66_equality_partial",
    "Verif.C66_lengths_ignored"
   ],
   "note": "False: not transitive through objects without raw tag. Proved: reflexive, symmetric, transitive through objects with raw tags."
  },
  {
   "property": "C67",
   "status": "proved",
   "theorems": [
    "Verif.C67_bitslice",
    "Verif.C67_bitslice_of_slice"
   ],
   "note": ""
  },
  {
   "property": "C68",
   "status": "partial",
   "theorems": [
    "Verif.C68_tagged_counterexample",
    "Verif.C68_not_recursive_partial",
    "Verif.C68_elements_ignored_partial"
   ],
   "note": "False: objects inside a tag are printed whatever the flags. Proved for SEQUENCE and SET."
  },
  {
   "property": "C69",
   "status": "proved",
   "theorems": [
    "Verif.C69_layout",
    "Verif.C69_each_object_once"
   ],
   "note": ""
  },
  {
   "property": "C70",
   "status": "partial",
   "theorems": [
    "Verif.C70_same_line_counterexample",
    "Verif.C70_line_starts_partial"
   ],
   "note": "False: siblings follow each other on one line. Proved: exactly which pieces start a line."
  },
  {
   "property": "C71",
   "status": "partial",
   "theorems": [
    "Verif.C71_bmp_text",
    "Verif.C71_bmp_error_partial",
    "Verif.C71_bmp_parsed",
    "Verif.C71_universal_text",
    "Verif.C71_universal_error_partial",
    "Verif.C71_bmp_cut",
    "Verif.C71_universal_exact",
    "Verif.C71_universal_cut_counterexample",
    "Verif.C71_universal_numbers"
   ],
   "note": "False for contents whose number of octets is not a multiple of the size of a code unit: chunks_exact drops the rest, so octets at the end of a UniversalString are not printed (counterexample, accepted by parse_ber and parse_der). Proved: the text of well-formed contents, the error text for the other contents of proper length, and the exact text for all (C71_bmp_cut, C71_universal_exact)."
  },
  {
   "property": "C72",
   "status": "proved",
   "theorems": [
    "Verif.C72_ber_unsigned_result",
    "Verif.C72_ber_signed_result",
    "Verif.C72_ber_unsigned",
    "Verif.C72_ber_signed",
    "Verif.C72_der_unsigned",
    "Verif.C72_der_signed",
    "Verif.C72_one_step_two_steps_signed"
   ],
   "note": ""
  },
  {
   "property": "C73",
   "status": "proved",
   "theorems": [
    "Verif.C73_expansion",
    "Verif.C73_exact",
    "Verif.C73_refused",
    "Verif.C73_relative",
    "Verif.C73_absolute",
    "Verif.C73_unambiguous"
   ],
   "note": ""
  },
  {
   "property": "C74",
   "status": "partial",
   "theorems": [
    "Verif.C74_repetition",
    "Verif.C74_container",
    "Verif.C74_container_not_called",
    "Verif.C74_defined",
    "Verif.C74_tagged_explicit",
    "Verif.C74_tagged_implicit",
    "Verif.C74_optional",
    "Verif.C74_of_v_ok",
    "Verif.C74_of_v",
    "Verif.C74_stateless",
    "Verif.C74_extra_call_counterexample",
    "Verif.C74_calls_partial"
   ],
   "note": "False: a successful sequence-of calls the closure once more, on the empty remainder. Proved: the exact sequence of calls, answers and states of every combinator."
  },
  {
   "property": "C75",
   "status": "proved",
   "theorems": [
    "Verif.C75_set_raw_tag",
    "Verif.C75_from_header_and_content",
    "Verif.C75_accessors",
    "Verif.C75_queries",
    "Verif.C75_asserts",
    "Verif.C75_parsed",
    "Verif.C75_parsed_nodes",
    "Verif.C75_of_content",
    "Verif.C75_of_oid",
    "Verif.C75_as_ref"
   ],
   "note": ""
  },
  {
   "property": "C76",
   "status": "proved",
   "theorems": [
    "Verif.C76_size",
    "Verif.C76_count",
    "Verif.C76_depth"
   ],
   "note": ""
  },
  {
   "property": "C77",
   "status": "proved",
   "theorems": [
    "Verif.C77_exact",
    "Verif.C77_main",
    "Verif.C77_nested",
    "Verif.C77_origin",
    "Verif.C77_linear",
    "Verif.C77_depth",
    "Verif.C77_depth_unlimited"
   ],
   "note": ""
  },
  {
   "property": "C78",
   "status": "proved",
   "theorems": [
    "Verif.C78_same_results",
    "Verif.C78_parse_ber",
    "Verif.C78_parse_ber_with_tag",
    "Verif.C78_parse_der",
    "Verif.C78_parse_der_with_tag",
    "Verif.C78_nested_cost"
   ],
   "note": ""
  },
  {
   "property": "C79",
   "status": "proved",
   "theorems": [
    "Verif.C79_as_u64",
    "Verif.C79_as_u32",
    "Verif.C79_as_u64_errors",
    "Verif.C79_as_u32_errors",
    "Verif.C79_integer_only",
    "Verif.C79_agree",
    "Verif.C79_parsed_enum",
    "Verif.C79_i32_i64_disagree"
   ],
   "note": ""
  },
  {
   "property": "C80",
   "status": "proved",
   "theorems": [
    "Verif.C80_values_only",
    "Verif.C80_exact",
    "Verif.C80_replaced",
    "Verif.C80_run",
    "Verif.C80_fuel",
    "Verif.C80_edit_serialize_parse",
    "Verif.C80_parse_edit_integers"
   ],
   "note": ""
  },
  {
   "property": "C81",
   "status": "proved",
   "theorems": [
    "Verif.C81_cut_answer",
    "Verif.C81_incomplete_iff",
    "Verif.C81_prefix_iff",
    "Verif.C81_every_cut",
    "Verif.C81_need_le",
    "Verif.C81_hopeless"
   ],
   "note": ""
  },
  {
   "property": "C82",
   "status": "proved",
   "theorems": [
    "Verif.C82_read_stream",
    "Verif.C82_read_accepted",
    "Verif.C82_end_of_stream",
    "Verif.C82_no_tag_cut",
    "Verif.C82_tag_counterexample"
   ],
   "note": ""
  },
  {
   "property": "C83",
   "status": "proved",
   "theorems": [
    "Verif.C83_fixed_iff_canonical",
    "Verif.C83_der_fixed_iff_canonical",
    "Verif.C83_unique",
    "Verif.C83_output_canonical",
    "Verif.C83_valid_der_changed_counterexample",
    "Verif.C83_accepted_not_canonical"
   ],
   "note": ""
  },
  {
   "property": "C84",
   "status": "proved",
   "theorems": [
    "Verif.C84_rejected_iff",
    "Verif.C84_answers",
    "Verif.C84_complete",
    "Verif.C84_exclusive",
    "Verif.C84_member_cut"
   ],
   "note": ""
  },
  {
   "property": "C85",
   "status": "proved",
   "theorems": [
    "Verif.C85_rejected_iff",
    "Verif.C85_incomplete_iff",
    "Verif.C85_answers",
    "Verif.C85_complete",
    "Verif.C85_need_whole",
    "Verif.C85_empty_bit_string"
   ],
   "note": ""
  },
  {
   "property": "C86",
   "status": "proved",
   "theorems": [
    "Verif.C86_ber_rejected_iff",
    "Verif.C86_ber_incomplete_iff",
    "Verif.C86_der_rejected_iff",
    "Verif.C86_der_incomplete_iff",
    "Verif.C86_answers",
    "Verif.C86_oversize"
   ],
   "note": ""
  },
  {
   "property": "C87",
   "status": "proved",
   "theorems": [
    "Verif.C87_ber_cover",
    "Verif.C87_ber_unframed",
    "Verif.C87_ber_unsigned",
    "Verif.C87_ber_signed",
    "Verif.C87_der_cover",
    "Verif.C87_der_unframed",
    "Verif.C87_der_unsigned",
    "Verif.C87_der_signed"
   ],
   "note": ""
  },
  {
   "property": "C88",
   "status": "proved",
   "theorems": [
    "Verif.C88_unframed",
    "Verif.C88_cover",
    "Verif.C88_unique",
    "Verif.C88_items",
    "Verif.C88_items_exist",
    "Verif.C88_items_unique",
    "Verif.C88_of_v",
    "Verif.C88_of_v_bad_item",
    "Verif.C88_of_v_cut_item",
    "Verif.C88_g_unframed",
    "Verif.C88_object_versions",
    "Verif.C88_library_items",
    "Verif.C88_definite_cut"
   ],
   "note": ""
  },
  {
   "property": "C89",
   "status": "proved",
   "theorems": [
    "Verif.C89_ber_ok",
    "Verif.C89_ber_rejected_iff",
    "Verif.C89_ber_incomplete_iff",
    "Verif.C89_der_ok",
    "Verif.C89_der_rejected_iff",
    "Verif.C89_der_incomplete_iff",
    "Verif.C89_answers"
   ],
   "note": ""
  },
  {
   "property": "C90",
   "status": "partial",
   "theorems": [
    "Verif.C90_indefinite_counterexample",
    "Verif.C90_definite_partial",
    "Verif.C90_indefinite_refused",
    "Verif.C90_indefinite_waits",
    "Verif.C90_der"
   ],
   "note": "False for indefinite lengths: the end-of-contents octets are removed and then looked for again, so none of these elements is accepted (counterexample, C90_indefinite_refused). Proved for known lengths, and for DER: exact values and errors."
  },
  {
   "property": "C91",
   "status": "proved",
   "theorems": [
    "Verif.C91_ok_iff",
    "Verif.C91_rejected_iff",
    "Verif.C91_incomplete_iff",
    "Verif.C91_answers",
    "Verif.C91_other_class",
    "Verif.C91_universal_agrees"
   ],
   "note": ""
  },
  {
   "property": "C92",
   "status": "proved",
   "theorems": [
    "Verif.C92_raw_definite",
    "Verif.C92_raw_indefinite",
    "Verif.C92_raw_consistent",
    "Verif.C92_raw_panics",
    "Verif.C92_explicit_exact",
    "Verif.C92_implicit_exact",
    "Verif.C92_tagged_panics",
    "Verif.C92_tagged_content",
    "Verif.C92_optional_content",
    "Verif.C92_raw_indefinite_parsed"
   ],
   "note": ""
  },
  {
   "property": "C93",
   "status": "proved",
   "theorems": [
    "Verif.C93_decimal",
    "Verif.C93_header",
    "Verif.C93_value",
    "Verif.C93_value_total"
   ],
   "note": ""
  },
  {
   "property": "C94",
   "status": "partial",
   "theorems": [
    "Verif.C94_forged_counterexample",
    "Verif.C94_one_string_partial",
    "Verif.C94_values_partial",
    "Verif.C94_printable_safe_partial"
   ],
   "note": "False: characters of strings are not escaped, so one UTF8String can be printed as two (counterexample, both inputs are DER). Proved: one string printed alone, enumerated values and booleans can be told apart; PrintableString and NumericString contain no quotation mark or line break."
  },
  {
   "property": "C95",
   "status": "proved",
   "theorems": [
    "Verif.C95_parse_ber",
    "Verif.C95_parse_ber_with_tag",
    "Verif.C95_parse_der_with_tag",
    "Verif.C95_parse_der"
   ],
   "note": ""
  },
  {
   "property": "C96",
   "status": "proved",
   "theorems": [
    "Verif.C96_exact",
    "Verif.C96_unique",
    "Verif.C96_rejected",
    "Verif.C96_of_optional"
   ],
   "note": ""
  },
  {
   "property": "C97",
   "status": "proved",
   "theorems": [
    "Verif.C97_total",
    "Verif.C97_suffix",
    "Verif.C97_extension",
    "Verif.C97_optional_extension_counterexample"
   ],
   "note": ""
  },
  {
   "property": "C98",
   "status": "partial",
   "theorems": [
    "Verif.C98_optional_counterexample",
    "Verif.C98_der_ber_partial"
   ],
   "note": "False with optional parts: a part that is wrong by DER is taken for absent (counterexample). Proved for all compositions without optional parts, on inputs shorter than 2^32 octets (BIT STRINGs are not limited by the DER functions, C36)."
  },
  {
   "property": "C99",
   "status": "partial",
   "theorems": [
    "Verif.C99_all_consuming",
    "Verif.C99_all_consuming_defined",
    "Verif.C99_all_consuming_rest",
    "Verif.C99_many1_exact",
    "Verif.C99_many1_refused",
    "Verif.C99_empty_counterexample",
    "Verif.C99_trailing_counterexample",
    "Verif.C99_same_partial",
    "Verif.C99_same_all_consuming"
   ],
   "note": "False for many1(complete(f)): the empty SEQUENCE is refused and octets at the end are ignored (two counterexamples). Proved: what the sequence-of accepts, not empty, is accepted with the same result; exact description of many1; the claim about all_consuming in full."
  },
  {
   "property": "C100",
   "status": "proved",
   "theorems": [
    "Verif.C100_unique",
    "Verif.C100_file",
    "Verif.C100_program"
   ],
   "note": ""
  },
  {
   "property": "C101",
   "status": "proved",
   "theorems": [
    "Verif.C101_lengths",
    "Verif.C101_extent",
    "Verif.C101_accepted_iff",
    "Verif.C101_rust_equal"
   ],
   "note": ""
  },
  {
   "property": "C102",
   "status": "partial",
   "theorems": [
    "Verif.C102_accepted_partial",
    "Verif.C102_accepted_ber_partial",
    "Verif.C102_t61_counterexample",
    "Verif.C102_enumerated_counterexample",
    "Verif.C102_tag_counterexample",
    "Verif.C102_depth_counterexample",
    "Verif.C102_full_counterexample",
    "Verif.C102_exact",
    "Verif.C102_exact_ber"
   ],
   "note": "False: registered character sets must be UTF-8, enumerated values are limited to 32 bits, tag numbers to 32 bits (those up to 2^35 are read modulo 2^32), levels to 50 (counterexamples). Proved: all other DER documents are accepted, whole; and for tag numbers below 2^32 these are the only limits: a DER document is accepted if and only if it is within them (C102_exact, C102_exact_ber)."
  },
  {
   "property": "C103",
   "status": "partial",
   "theorems": [
    "Verif.C103_reproduced_partial",
    "Verif.C103_unique_partial",
    "Verif.C103_enumerated_counterexample",
    "Verif.C103_tag_counterexample",
    "Verif.C103_full_counterexample",
    "Verif.C103_exact"
   ],
   "note": "False: enumerated values lose leading zero octets (128 is written as -128, zero as nothing) and tag numbers above 30 make the serializer panic (counterexamples); times depend on the date library. Proved for all other DER documents within the limits of the parser (C102). Exact: an accepted DER document is reproduced if and only if it is within these limits (C103_exact)."
  },
  {
   "property": "C104",
   "status": "proved",
   "theorems": [
    "Verif.C104_iff",
    "Verif.C104_verbatim",
    "Verif.C104_der_iff"
   ],
   "note": ""
  },
  {
   "property": "C105",
   "status": "partial",
   "theorems": [
    "Verif.C105_ber_partial",
    "Verif.C105_der_partial",
    "Verif.C105_ber_typed_partial",
    "Verif.C105_der_typed_partial",
    "Verif.C105_accepted_later",
    "Verif.C105_counterexample"
   ],
   "note": "False for input that ends inside a tag number in the long form (`9f`), which is called invalid and accepted with the octets that follow (C105_counterexample). Proved for all other input; only input cut in this way can be accepted later (C105_accepted_later)."
  },
  {
   "property": "C106",
   "status": "partial",
   "theorems": [
    "Verif.C106_faults_partial",
    "Verif.C106_ber_faults",
    "Verif.C106_outer_counterexample",
    "Verif.C106_inner_counterexample",
    "Verif.C106_full_counterexample"
   ],
   "note": "False: C106_outer_counterexample and C106_inner_counterexample list accepted elements that are not DER. Proved that the list of faults is complete: an accepted element is DER exactly if it has none of them. The order of SET members and default values are not part of DerDoc."
  },
  {
   "property": "C107",
   "status": "partial",
   "theorems": [
    "Verif.C107_ber_members",
    "Verif.C107_der_members",
    "Verif.C107_ber_permuted",
    "Verif.C107_der_permuted_partial",
    "Verif.C107_not_ordered",
    "Verif.C107_full_counterexample"
   ],
   "note": "False: 31 06 02 01 02 01 01 00 is accepted with its members in neither order (C107_full_counterexample). Proved instead: acceptance is member by member, and every permutation of the members is accepted with the children permuted alike."
  },
  {
   "property": "C108",
   "status": "partial",
   "theorems": [
    "Verif.C108_written_read",
    "Verif.C108_exact_partial",
    "Verif.C108_fits_partial",
    "Verif.C108_reread_partial",
    "Verif.C108_absent_counterexample",
    "Verif.C108_full_counterexample"
   ],
   "note": "False: absent options are written as 00 00, which the same parser refuses (counterexample); times depend on the date library. Proved for all other values of every composition: values that fit are written and read back (C108_written_read), what was read fits (C108_fits_partial), and an object without absent options is read back exactly if it fits (C108_exact_partial)."
  },
  {
   "property": "C109",
   "status": "proved",
   "theorems": [
    "Verif.C109_exact",
    "Verif.C109_cover",
    "Verif.C109_unique",
    "Verif.C109_failure"
   ],
   "note": "Times: for DER the result relies on TimesKnown, as C96."
  },
  {
   "property": "C110",
   "status": "partial",
   "theorems": [
    "Verif.C110_fixed",
    "Verif.C110_counterexample",
    "Verif.C110_exact_partial",
    "Verif.C110_partial"
   ],
   "note": "C110Statement is false (C110_counterexample: 30 01 02 as SEQUENCE with one INTEGER). C110_exact_partial: for parsers that delimit one element the request can be met exactly if the element is not complete; C110_partial: always for the other parsers, SEQUENCE OF and SET OF. The octets found need not lead to an accepted input (see C81_hopeless)."
  },
  {
   "property": "C111",
   "status": "partial",
   "theorems": [
    "Verif.C111_exact_partial",
    "Verif.C111_checked",
    "Verif.C111_unchecked",
    "Verif.C111_counterexample",
    "Verif.C111_ref_iter",
    "Verif.C111_ref_iter_wraps",
    "Verif.C111_ref_iter_panics",
    "Verif.C111_into_iter",
    "Verif.C111_visit",
    "Verif.C111_visit_wraps",
    "Verif.C111_visit_panics",
    "Verif.C111_visit_parsed",
    "Verif.C111_encode_length"
   ],
   "note": "C111Statement is false (C111_counterexample: a BIT STRING of 2^29 zero octets on a 32-bit target, accepted by parse_ber). C111_exact_partial: equal while the number of bits fits in a word, which covers data below 2^61 octets on 64-bit targets; C111_checked and C111_unchecked give the answers beyond. On 32-bit targets asn1-rs refuses lengths of 2^32 and more in the header already (C135)."
  },
  {
   "property": "C112",
   "status": "partial",
   "theorems": [
    "Verif.C112_same_results",
    "Verif.C112_same_results_objects",
    "Verif.C112_parsers",
    "Verif.C112_parsers_attained",
    "Verif.C112_parse_ber_accepted",
    "Verif.C112_parse_ber_limited",
    "Verif.C112_visit",
    "Verif.C112_objects",
    "Verif.C112_objects_exact",
    "Verif.C112_encode_exact",
    "Verif.C112_print_exact",
    "Verif.C112_integer",
    "Verif.C112_not_integer",
    "Verif.C112_integer_minimal",
    "Verif.C112_bounded_partial",
    "Verif.C112_counterexample",
    "Verif.C112_not_statement",
    "Verif.C112_der_top",
    "Verif.C112_der_counterexample"
   ],
   "note": "C112Statement is false (C112_counterexample, C112_not_statement: INTEGERs of n+1 zero octets for every n a length can announce; C112_der_counterexample inside a SEQUENCE for parse_der). C112_bounded_partial: everything but the accessors on INTEGERs with superfluous leading zero octets. C112_same_results tie the counted functions to the model. Counted are activations, not bytes of stack; code derived by the compiler (Clone, PartialEq, Drop, Debug) is not counted; visit_ber_bfs_mut is C141."
  },
  {
   "property": "C113",
   "status": "partial",
   "theorems": [
    "Verif.C113_buffer",
    "Verif.C113_two_writes",
    "Verif.C113_writes",
    "Verif.C113_vec",
    "Verif.C113_bounded",
    "Verif.C113_counterexample",
    "Verif.C113_not_statement",
    "Verif.C113_partial"
   ],
   "note": "The statement is false for outputs that take octets in pieces (C113_counterexample, C113_not_statement); C113_partial: outputs that take everything they are offered. The rest of the statement is proved."
  },
  {
   "property": "C114",
   "status": "partial",
   "theorems": [
    "Verif.C114_prefix",
    "Verif.C114_stops",
    "Verif.C114_panics",
    "Verif.C114_width_counterexample",
    "Verif.C114_overflow_counterexample",
    "Verif.C114_not_statement",
    "Verif.C114_partial"
   ],
   "note": "C114Statement is false (C114_width_counterexample, C114_overflow_counterexample, C114_not_statement); C114_partial: no printed object is too far to the right. Prefix, stopping and panics are proved for all outputs."
  },
  {
   "property": "C115",
   "status": "proved",
   "theorems": [
    "Verif.C115_program",
    "Verif.C115_program_row",
    "Verif.C115_program_unique",
    "Verif.C115_prefix_free",
    "Verif.C115_row",
    "Verif.C115_unique",
    "Verif.C115_ber_unique",
    "Verif.C115_written",
    "Verif.C115_stream"
   ],
   "note": ""
  },
  {
   "property": "C116",
   "status": "proved",
   "theorems": [
    "Verif.C116_der",
    "Verif.C116_ber",
    "Verif.C116_ber_cut",
    "Verif.C116_der_cut",
    "Verif.C116_too_long",
    "Verif.C116_conditions"
   ],
   "note": ""
  },
  {
   "property": "C117",
   "status": "proved",
   "theorems": [
    "Verif.C117_my_object",
    "Verif.C117_my_object_container",
    "Verif.C117_my_object_other_tag",
    "Verif.C117_my_object_total",
    "Verif.C117_explicit",
    "Verif.C117_explicit_g",
    "Verif.C117_explicit_range",
    "Verif.C117_explicit_agree",
    "Verif.C117_implicit",
    "Verif.C117_implicit_g",
    "Verif.C117_implicit_range",
    "Verif.C117_implicit_agree",
    "Verif.C117_implicit_octets",
    "Verif.C117_tagged_total",
    "Verif.C117_struct01",
    "Verif.C117_struct01_complete",
    "Verif.C117_struct01_garbage",
    "Verif.C117_struct04",
    "Verif.C117_struct_total",
    "Verif.C117_name",
    "Verif.C117_name_never_refused"
   ],
   "note": ""
  },
  {
   "property": "C118",
   "status": "proved",
   "theorems": [
    "Verif.C118_total",
    "Verif.C118_suffix",
    "Verif.C118_local",
    "Verif.C118_local_counterexample",
    "Verif.C118_composed",
    "Verif.C118_my_object",
    "Verif.C118_name",
    "Verif.C118_several",
    "Verif.C118_defined",
    "Verif.C118_attempt_opt"
   ],
   "note": ""
  },
  {
   "property": "C119",
   "status": "proved",
   "theorems": [
    "Verif.C119_accepts",
    "Verif.C119_refuses",
    "Verif.C119_cover",
    "Verif.C119_wrapped"
   ],
   "note": ""
  },
  {
   "property": "C120",
   "status": "partial",
   "theorems": [
    "Verif.C120_ber_codes",
    "Verif.C120_der_codes",
    "Verif.C120_typed_codes",
    "Verif.C120_content_codes",
    "Verif.C120_container_codes",
    "Verif.C120_never",
    "Verif.C120_codes_occur",
    "Verif.C120_culprit",
    "Verif.C120_der_culprit",
    "Verif.C120_invalid_tag",
    "Verif.C120_indefinite_is_constructed",
    "Verif.C120_indefinite_to_closure",
    "Verif.C120_indefinite_primitive",
    "Verif.C120_private",
    "Verif.C120_depth_zero",
    "Verif.C120_der_indefinite_counterexample",
    "Verif.C120_not_statement",
    "Verif.C120_der_indefinite_partial",
    "Verif.C120_unexpected_tag",
    "Verif.C120_integer_too_large"
   ],
   "note": "The change log says that an indefinite length in DER raises IndefiniteLengthUnexpected; parse_der and the functions for one type raise DerConstraintFailed(IndefiniteLength) for every such input (finding 57). Proved for the functions for contents; all other parts hold."
  },
  {
   "property": "C121",
   "status": "partial",
   "theorems": [
    "Verif.C121_accepted_partial",
    "Verif.C121_der_is_ber",
    "Verif.C121_segments_counterexample",
    "Verif.C121_empty_zero_counterexample",
    "Verif.C121_limits_counterexample",
    "Verif.C121_full_counterexample",
    "Verif.C121_exact",
    "Verif.C121_indefinite_nesting"
   ],
   "note": "False for BIT STRING and character strings in segments (Unsupported), for elements of number 0 and length 0 directly inside an indefinite length (taken for its end), for 50 and more indefinite lengths one inside the other, more than 50 levels, ENUMERATED from 2^32 on, and tag numbers from 2^32 on (counterexamples, C121_full_counterexample). Strings of registered character sets that are not UTF-8 and times that the date library does not read are limits as well. C121_exact: among BER documents with tag numbers below 2^32 and without the elements of number 0, exactly those within these limits are accepted. Contents of constructed encodings other than SEQUENCE and SET are followed only as far as indefinite lengths go, so BerDoc contains all BER documents and some more."
  },
  {
   "property": "C122",
   "status": "partial",
   "theorems": [
    "Verif.C122_faults_partial",
    "Verif.C122_contents_counterexample",
    "Verif.C122_forms_counterexample",
    "Verif.C122_misread_counterexample",
    "Verif.C122_full_counterexample"
   ],
   "note": "False (21 accepted inputs that are not BER, C122_contents_counterexample, C122_forms_counterexample). C122_faults_partial: an accepted input is BER, without elements of number 0 and length 0 directly inside an indefinite length, exactly if it has none of the faults of the list."
  },
  {
   "property": "C123",
   "status": "partial",
   "theorems": [
    "Verif.C123_value_partial",
    "Verif.C123_der_partial",
    "Verif.C123_segments_counterexample",
    "Verif.C123_enumerated_counterexample",
    "Verif.C123_full_counterexample",
    "Verif.C123_one_value",
    "Verif.C123_is_ber",
    "Verif.C123_every_document",
    "Verif.C123_unambiguous"
   ],
   "note": "False for OCTET STRING in segments (as_slice answers with the segments including tags and lengths) and for negative ENUMERATED values (read without sign), and beyond the limits of C121 (C123_full_counterexample). C123_value_partial: true for all other values of the known types; as_i64 and as_i32 are left open between half of their range and the whole, where they answer with a negative number (C18). C123_one_value, C123_unambiguous, C123_is_ber, C123_every_document show that the notion of value is sound: one value per object and per encoding, and every BER document of known types has one. REAL, EXTERNAL and the registered character sets are not values here; elements of other classes are their tag and contents octets."
  },
  {
   "property": "C124",
   "status": "partial",
   "theorems": [
    "Verif.C124_rewritten_partial",
    "Verif.C124_enumerated_counterexample",
    "Verif.C124_full_counterexample"
   ],
   "note": "False for ENUMERATED: 128 is written as -128, 0 as an element without contents octets (C124_enumerated_counterexample, C124_full_counterexample). C124_rewritten_partial: values without times, tag numbers above 30, and the enumerated values that are 0 or whose number of binary digits is a multiple of 8 are written with the same value. Times depend on the date library (C46)."
  },
  {
   "property": "C125",
   "status": "partial",
   "theorems": [
    "Verif.C125_written_partial",
    "Verif.C125_every_encoding_partial",
    "Verif.C125_one_encoding_partial",
    "Verif.C125_is_der",
    "Verif.C125_read_back_partial",
    "Verif.C125_read_back_der_partial",
    "Verif.C125_enumerated",
    "Verif.C125_times",
    "Verif.C125_enumerated_counterexample",
    "Verif.C125_full_counterexample"
   ],
   "note": "False for ENUMERATED: 128 is written as the DER encoding of -128 (C125_enumerated_counterexample, C125_full_counterexample); C125_enumerated says exactly which are written right, C125_times the same for times. C125_written_partial and its companions: all other values with tag numbers up to 30. Members of a SET are taken in the order of the value; the order DER asks for is C107."
  },
  {
   "property": "C126",
   "status": "proved",
   "theorems": [
    "Verif.C126_truncated",
    "Verif.C126_prefix_free",
    "Verif.C126_streaming",
    "Verif.C126_read",
    "Verif.C126_read_from",
    "Verif.C126_hint",
    "Verif.C126_container",
    "Verif.C126_indefinite",
    "Verif.C126_container_counterexample",
    "Verif.C126_chunk_counterexample",
    "Verif.C126_absence_counterexample"
   ],
   "note": ""
  },
  {
   "property": "C127",
   "status": "partial",
   "theorems": [
    "Verif.C127_one_value",
    "Verif.C127_one_encoded_partial",
    "Verif.C127_values_partial",
    "Verif.C127_required_partial",
    "Verif.C127_class_counterexample",
    "Verif.C127_full_counterexample",
    "Verif.C127_set_order_counterexample"
   ],
   "note": "False if an OPTIONAL component and what follows it have tags with the same number in different classes: SEQUENCE { a BOOLEAN OPTIONAL, b [1] IMPLICIT OCTET STRING OPTIONAL } reads b as a (C127_class_counterexample, C127_full_counterexample). C127_values_partial: all types where the numbers differ, or where the OPTIONAL component has an explicit tag. The encodings are those of values that are read at all (C123), IMPLICIT tags with definite lengths (C90), and the components of a SET in the order of the type (C127_set_order_counterexample)."
  },
  {
   "property": "C128",
   "status": "partial",
   "theorems": [
    "Verif.C128_written_partial",
    "Verif.C128_read_back_partial",
    "Verif.C128_tagged_partial",
    "Verif.C128_enumerated_counterexample",
    "Verif.C128_full_counterexample",
    "Verif.C128_read_back_counterexample"
   ],
   "note": "False for the enumerated value 0, written as `0a 00` (C128_enumerated_counterexample, C128_full_counterexample), and 2^32 is written but refused when read (C128_read_back_counterexample). C128_written_partial and C128_read_back_partial: all types and all objects whose values without components are Rewritable (C125), tag numbers at most 30; reading back asks for types with distinct tag numbers around OPTIONAL components (C127). Optional(None) objects are not used for absent components, because they are written as `00 00` (C108_absent_counterexample)."
  },
  {
   "property": "C129",
   "status": "proved",
   "theorems": [
    "Verif.C129_same_results",
    "Verif.C129_linear",
    "Verif.C129_consumed",
    "Verif.C129_optional_reads"
   ],
   "note": ""
  },
  {
   "property": "C130",
   "status": "proved",
   "theorems": [
    "Verif.C130_same_results",
    "Verif.C130_exact",
    "Verif.C130_height",
    "Verif.C130_parsed",
    "Verif.C130_quadratic"
   ],
   "note": ""
  },
  {
   "property": "C131",
   "status": "proved",
   "theorems": [
    "Verif.C131_parse_ber",
    "Verif.C131_parse_ber_with_tag",
    "Verif.C131_parse_der_with_tag",
    "Verif.C131_parse_der",
    "Verif.C131_quadratic"
   ],
   "note": ""
  },
  {
   "property": "C132",
   "status": "proved",
   "theorems": [
    "Verif.C132_alternative",
    "Verif.C132_determined",
    "Verif.C132_ends",
    "Verif.C132_forever",
    "Verif.C132_returns",
    "Verif.C132_model",
    "Verif.C132_no_longer",
    "Verif.C132_of_v",
    "Verif.C132_fuel_counterexample"
   ],
   "note": ""
  },
  {
   "property": "C133",
   "status": "proved",
   "theorems": [
    "Verif.C133_reread",
    "Verif.C133_utctime_lost",
    "Verif.C133_der_utctime_lost",
    "Verif.C133_generalized",
    "Verif.C133_survives_iff",
    "Verif.C133_library",
    "Verif.C133_calendar_times",
    "Verif.C133_calendar_errors",
    "Verif.C133_calendar_zones",
    "Verif.C133_calendar_fractions",
    "Verif.C133_calendar_no_seconds"
   ],
   "note": "C133_reread is for every date library. The other theorems are for every library with the five properties of Spec.DateLibrary (SpecTime.lean); C133_library shows that asn1-rs as modelled in Calendar.lean is one. That crate is not in the sandbox, so its model is from its documentation and the tests of the repository."
  },
  {
   "property": "C134",
   "status": "proved",
   "theorems": [
    "Verif.C134_refines",
    "Verif.C134_placed",
    "Verif.C134_parse_placed",
    "Verif.C134_returns",
    "Verif.C134_slices",
    "Verif.C134_zero_copy",
    "Verif.C134_moved",
    "Verif.C134_container",
    "Verif.C134_container_refines"
   ],
   "note": ""
  },
  {
   "property": "C135",
   "status": "proved",
   "theorems": [
    "Verif.C135_word64",
    "Verif.C135_answers",
    "Verif.C135_with_tag",
    "Verif.C135_accepts",
    "Verif.C135_returns",
    "Verif.C135_with_tag_returns",
    "Verif.C135_with_tag_accepts",
    "Verif.C135_differ",
    "Verif.C135_differ_inside",
    "Verif.C135_differ_tag",
    "Verif.C135_differ_depth",
    "Verif.C135_optional_differs"
   ],
   "note": ""
  },
  {
   "property": "C136",
   "status": "proved",
   "theorems": [
    "Verif.C136_not_longer",
    "Verif.C136_bound",
    "Verif.C136_factor",
    "Verif.C136_times",
    "Verif.C136_small",
    "Verif.C136_eoc_grows",
    "Verif.C136_time_grows",
    "Verif.C136_indefinite_grows"
   ],
   "note": ""
  },
  {
   "property": "C137",
   "status": "proved",
   "theorems": [
    "Verif.C137_sum",
    "Verif.C137_linear",
    "Verif.C137_parse_ber",
    "Verif.C137_quadratic"
   ],
   "note": ""
  },
  {
   "property": "C138",
   "status": "proved",
   "theorems": [
    "Verif.C138_word64",
    "Verif.C138_answers",
    "Verif.C138_accepts",
    "Verif.C138_kind",
    "Verif.C138_composed",
    "Verif.C138_name",
    "Verif.C138_header_differs",
    "Verif.C138_kind_differs",
    "Verif.C138_several_differs",
    "Verif.C138_within_differs"
   ],
   "note": ""
  },
  {
   "property": "C139",
   "status": "proved",
   "theorems": [
    "Verif.C139_refines",
    "Verif.C139_returns",
    "Verif.C139_placed",
    "Verif.C139_slices",
    "Verif.C139_zero_copy",
    "Verif.C139_moved",
    "Verif.C139_header_lost"
   ],
   "note": ""
  },
  {
   "property": "C140",
   "status": "proved",
   "theorems": [
    "Verif.C140_success",
    "Verif.C140_every_call",
    "Verif.C140_empty"
   ],
   "note": ""
  },
  {
   "property": "C141",
   "status": "proved",
   "theorems": [
    "Verif.C141_same_results",
    "Verif.C141_nesting",
    "Verif.C141_no_deeper",
    "Verif.C141_ends",
    "Verif.C141_endless",
    "Verif.C141_values",
    "Verif.C141_parsed",
    "Verif.C141_parsed_der",
    "Verif.C141_der_limit_zero"
   ],
   "note": ""
  },
  {
   "property": "C142",
   "status": "proved",
   "theorems": [
    "Verif.C142_refines",
    "Verif.C142_refines_members",
    "Verif.C142_lends",
    "Verif.C142_as_slice",
    "Verif.C142_contents",
    "Verif.C142_members",
    "Verif.C142_leads",
    "Verif.C142_input",
    "Verif.C142_input_parse",
    "Verif.C142_elements",
    "Verif.C142_slice",
    "Verif.C142_slice_refines",
    "Verif.C142_moved",
    "Verif.C142_bit_string"
   ],
   "note": ""
  },
  {
   "property": "C143",
   "status": "proved",
   "theorems": [
    "Verif.C143_same_results",
    "Verif.C143_window",
    "Verif.C143_parse_ber",
    "Verif.C143_parse_ber_with_tag",
    "Verif.C143_parse_der",
    "Verif.C143_parse_der_with_tag",
    "Verif.C143_at_least",
    "Verif.C143_der_checks",
    "Verif.C143_conversions",
    "Verif.C143_typed_conversions",
    "Verif.C143_nested_octets"
   ],
   "note": ""
  },
  {
   "property": "C144",
   "status": "proved",
   "theorems": [
    "Verif.C144_same_results",
    "Verif.C144_linear",
    "Verif.C144_consumed",
    "Verif.C144_at_least",
    "Verif.C144_optional_octets"
   ],
   "note": ""
  },
  {
   "property": "C145",
   "status": "proved",
   "theorems": [
    "Verif.C145_same_results",
    "Verif.C145_quadratic",
    "Verif.C145_definite",
    "Verif.C145_indefinite",
    "Verif.C145_der_same_results",
    "Verif.C145_der",
    "Verif.C145_der_calls",
    "Verif.C145_der_five",
    "Verif.C145_der_typed",
    "Verif.C145_ber_calls_counterexample",
    "Verif.C145_der_stream",
    "Verif.C145_ber_typed"
   ],
   "note": ""
  }
 ]
}
