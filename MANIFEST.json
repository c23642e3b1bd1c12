{
 "claims": [
  {
   "property": "C01",
   "status": "proved",
   "theorems": [
    "FastBer.Props.C01_identifier_round_trip"
   ],
   "note": "all classes, constructions, int64 tags, buffers, suffixes"
  },
  {
   "property": "C02",
   "status": "proved",
   "theorems": [
    "FastBer.Props.C02_identifier_size",
    "FastBer.Props.C02_identifier_octets",
    "FastBer.Props.C02_identifier_minimal"
   ],
   "note": "size, exact octets, minimality, frame"
  },
  {
   "property": "C03",
   "status": "proved",
   "theorems": [
    "FastBer.Props.C03_length_octets",
    "FastBer.Props.C03_length_round_trip",
    "FastBer.Props.C03_length_minimal"
   ],
   "note": "all uint64 lengths and buffers"
  },
  {
   "property": "C04",
   "status": "proved",
   "theorems": [
    "FastBer.Props.C04_extract_length_exact",
    "FastBer.Props.C04_extract_length_local"
   ],
   "note": "extract_length = X.690 reader on arbitrary bytes"
  },
  {
   "property": "C05",
   "status": "proved",
   "theorems": [
    "FastBer.Props.C05_header_round_trip"
   ],
   "note": "header round trip"
  },
  {
   "property": "C06",
   "status": "partial",
   "theorems": [
    "FastBer.Props.C06_violated",
    "FastBer.Props.C06_parse_safe_partial",
    "FastBer.Props.C06_parse_safe_short_tag_partial"
   ],
   "note": "false of the code (C06_violated: int64 tag overflow); the exact set of inputs with undefined behaviour is proved"
  },
  {
   "property": "C07",
   "status": "partial",
   "theorems": [
    "FastBer.Props.C07_violated",
    "FastBer.Props.C07_view_inside_partial",
    "FastBer.Props.C07_escape_only_by_wrap"
   ],
   "note": "false of the code (C07_violated: header+content wraps size_t); proved whenever the sum does not wrap"
  },
  {
   "property": "C08",
   "status": "proved",
   "theorems": [
    "FastBer.Props.C08_parse_append",
    "FastBer.Props.C08_parse_truncated",
    "FastBer.Props.C08_parse_local"
   ],
   "note": "append, truncation and locality"
  },
  {
   "property": "C09",
   "status": "partial",
   "theorems": [
    "FastBer.Props.C09_violated",
    "FastBer.Props.C09_violated_fixpoint",
    "FastBer.Props.C09_iteration_partial",
    "FastBer.Props.C09_walk_partial",
    "FastBer.Props.C09_plain_is_tame"
   ],
   "note": "false of the code (C09_violated: zero-length child by wrap); proved for all tame content"
  },
  {
   "property": "C10",
   "status": "proved",
   "theorems": [
    "FastBer.Props.C10_view_encode"
   ],
   "note": ""
  },
  {
   "property": "C11",
   "status": "proved",
   "theorems": [
    "FastBer.Props.C11_wrap_success",
    "FastBer.Props.C11_wrap_failure",
    "FastBer.Props.C11_encoded_length"
   ],
   "note": "single and double identifiers"
  },
  {
   "property": "C12",
   "status": "proved",
   "theorems": [
    "FastBer.Props.C12_integer_content_round_trip"
   ],
   "note": "all int64"
  },
  {
   "property": "C13",
   "status": "proved",
   "theorems": [
    "FastBer.Props.C13_integer_content_minimal",
    "FastBer.Props.C13_no_shorter_content"
   ],
   "note": ""
  },
  {
   "property": "C14",
   "status": "proved",
   "theorems": [
    "FastBer.Props.C14_decode_integer_exact"
   ],
   "note": ""
  },
  {
   "property": "C15",
   "status": "partial",
   "theorems": [
    "FastBer.Props.C15_violated",
    "FastBer.Props.C15_integer_decode_partial"
   ],
   "note": "false of the code (C15_violated: empty content is accepted); the exact acceptance condition (0..8 octets) and unchanged-on-failure are proved for every input"
  },
  {
   "property": "C16",
   "status": "proved",
   "theorems": [
    "FastBer.Props.C16_integer_history",
    "FastBer.Props.C16_integer_no_ub",
    "FastBer.Props.C16_assigned_integer_is_minimal",
    "FastBer.Props.C16_integer_wire_round_trip"
   ],
   "note": "all operation sequences, arbitrary decode inputs"
  },
  {
   "property": "C17",
   "status": "proved",
   "theorems": [
    "FastBer.Props.C17_boolean_history",
    "FastBer.Props.C17_boolean_assign",
    "FastBer.Props.C17_boolean_decode",
    "FastBer.Props.C17_boolean_wire_round_trip"
   ],
   "note": ""
  },
  {
   "property": "C18",
   "status": "proved",
   "theorems": [
    "FastBer.Props.C18_null_decode",
    "FastBer.Props.C18_null_round_trip"
   ],
   "note": ""
  },
  {
   "property": "C19",
   "status": "partial",
   "theorems": [
    "FastBer.Props.C19_enumerated_assign",
    "FastBer.Props.C19_enumerated_round_trip",
    "FastBer.Props.C19_truncation_violates"
   ],
   "note": "false of the code (C19_truncation_violates: generated enums have int underlying type); proved for all values representable in the underlying type"
  },
  {
   "property": "C20",
   "status": "proved",
   "theorems": [
    "FastBer.Props.C20_oid_round_trip",
    "FastBer.Props.C20_assign_partial"
   ],
   "note": "all legal lists and buffers; the object-level assign inherits the resize restriction of C25 (C20_assign_partial)"
  },
  {
   "property": "C21",
   "status": "partial",
   "theorems": [
    "FastBer.Props.C21_violated",
    "FastBer.Props.C21_violated_overflow",
    "FastBer.Props.C21_oid_validation_partial"
   ],
   "note": "false of the code (C21_violated: negative first components are encoded; C21_violated_overflow); every other illegal list is proved rejected inside the buffer"
  },
  {
   "property": "C22",
   "status": "partial",
   "theorems": [
    "FastBer.Props.C22_number_of_components",
    "FastBer.Props.C22_violated_index1",
    "FastBer.Props.C22_violated_ub",
    "FastBer.Props.C22_violated_later",
    "FastBer.Props.C22_component_partial"
   ],
   "note": "false of the code (index 1 reads the wrong octet or past the end, later indices always 0); number of components and index 0 proved"
  },
  {
   "property": "C23",
   "status": "proved",
   "theorems": [
    "FastBer.Props.C23_decode_oid_total"
   ],
   "note": "exact result on arbitrary content"
  },
  {
   "property": "C24",
   "status": "proved",
   "theorems": [
    "FastBer.Props.C24_assign",
    "FastBer.Props.C24_equality",
    "FastBer.Props.C24_round_trip"
   ],
   "note": "from any prior state, all identifiers; moved-from and self-aliasing excluded"
  },
  {
   "property": "C25",
   "status": "partial",
   "theorems": [
    "FastBer.Props.C25_violated",
    "FastBer.Props.C25_violated_growth",
    "FastBer.Props.C25_resize_partial"
   ],
   "note": "false of the code (C25_violated: shrinking across a header size change reads past the vector; C25_violated_growth: stale bytes); exact result proved in all other cases"
  },
  {
   "property": "C26",
   "status": "partial",
   "theorems": [
    "FastBer.Props.C26_container_history_partial",
    "FastBer.Props.C26_content_single",
    "FastBer.Props.C26_content_double_violated",
    "FastBer.Props.C26_violated",
    "FastBer.Props.C26_moved_from_violated"
   ],
   "note": "false of the code for wrapping lengths (C26_violated) and moved-from objects; proved for all histories with sane decode input"
  },
  {
   "property": "C27",
   "status": "proved",
   "theorems": [
    "FastBer.Props.C27_special_values"
   ],
   "note": "all identifiers of the special values, any buffer of at least one byte"
  },
  {
   "property": "C28",
   "status": "partial",
   "theorems": [
    "FastBer.Props.C28_round_trip_partial",
    "FastBer.Props.C28_violated",
    "FastBer.Props.C28_wrong_exponent_partial",
    "FastBer.Props.C28_object_partial"
   ],
   "note": "false of the code (C28_violated: two-octet exponents are misread, 2^200 becomes 2^52); the exact set of doubles that survive is proved (iff), also on objects"
  },
  {
   "property": "C29",
   "status": "partial",
   "theorems": [
    "FastBer.Props.C29_violated",
    "FastBer.Props.C29_violated_decimal",
    "FastBer.Props.C29_terminates_partial"
   ],
   "note": "false of the code (C29_violated: 80 00 00 01 spins for ever; C29_violated_decimal: a lone decimal form octet reads outside the contents); the exact set of contents on which it spins, and of those on which it reads outside, is proved"
  },
  {
   "property": "C30",
   "status": "proved",
   "theorems": [
    "FastBer.Props.C30_accepted_bounds"
   ],
   "note": "every accepted contents lies within the documented lengths/format"
  },
  {
   "property": "C31",
   "status": "proved",
   "theorems": [
    "FastBer.Props.C31_encode_length"
   ],
   "note": "all well-formed schemas and objects (unbounded nesting)"
  },
  {
   "property": "C32",
   "status": "proved",
   "theorems": [
    "FastBer.Props.C32_encode_exact"
   ],
   "note": "all well-formed schemas and objects (unbounded nesting)"
  },
  {
   "property": "C33",
   "status": "partial",
   "theorems": [
    "FastBer.Props.C33_round_trip_partial",
    "FastBer.Props.C33_self_equal",
    "FastBer.Props.C33_violated"
   ],
   "note": "false of the code in general (C33_violated: CHOICE ignores the tag class); proved for all well-formed schemas satisfying X.680 distinctness whose CHOICE labels have distinct numbers"
  },
  {
   "property": "C34",
   "status": "proved",
   "theorems": [
    "FastBer.Props.C34_single_element"
   ],
   "note": "all well-formed schemas and objects (unbounded nesting)"
  },
  {
   "property": "C35",
   "status": "proved",
   "theorems": [
    "FastBer.Props.C35_prefix_free",
    "FastBer.Props.C35_injective"
   ],
   "note": "all well-formed schemas and objects (unbounded nesting)"
  },
  {
   "property": "C36",
   "status": "proved",
   "theorems": [
    "FastBer.Props.C36_deterministic"
   ],
   "note": "all well-formed schemas and objects (unbounded nesting)"
  },
  {
   "property": "C37",
   "status": "partial",
   "theorems": [
    "FastBer.Props.C37_order_partial",
    "FastBer.Props.C37_previous_state",
    "FastBer.Props.C37_child_failure_partial"
   ],
   "note": "order, prior-state independence and child failure proved under the guard that excludes the UB cases"
  },
  {
   "property": "C38",
   "status": "partial",
   "theorems": [
    "FastBer.Props.C38_absent_no_octets",
    "FastBer.Props.C38_seq_presence_partial",
    "FastBer.Props.C38_set_presence_partial"
   ],
   "note": "both directions for SEQUENCE and SET; decode side under the unambiguity guard"
  },
  {
   "property": "C39",
   "status": "partial",
   "theorems": [
    "FastBer.Props.C39_assign",
    "FastBer.Props.C39_assigned",
    "FastBer.Props.C39_default_partial",
    "FastBer.Props.C39_violated_after_decode"
   ],
   "note": "false of the code after decode (C39_violated_after_decode: an explicitly encoded default is stored)"
  },
  {
   "property": "C40",
   "status": "partial",
   "theorems": [
    "FastBer.Props.C40_seq_missing_partial",
    "FastBer.Props.C40_set_missing_partial"
   ],
   "note": "proved under the guard excluding UB schemas"
  },
  {
   "property": "C41",
   "status": "partial",
   "theorems": [
    "FastBer.Props.C41_set_any_order_partial"
   ],
   "note": "proved under X.680 distinctness"
  },
  {
   "property": "C42",
   "status": "partial",
   "theorems": [
    "FastBer.Props.C42_duplicate_partial",
    "FastBer.Props.C42_unknown_partial",
    "FastBer.Props.C42_violated_empty",
    "FastBer.Props.C42_extensible_partial"
   ],
   "note": "false of the code: C42_violated_empty (empty SET accepts anything)"
  },
  {
   "property": "C43",
   "status": "partial",
   "theorems": [
    "FastBer.Props.C43_choice_sound_partial",
    "FastBer.Props.C43_choice_complete_partial",
    "FastBer.Props.C43_violated"
   ],
   "note": "false of the code: C43_violated (class ignored)"
  },
  {
   "property": "C44",
   "status": "partial",
   "theorems": [
    "FastBer.Props.C44_decode_safe_partial",
    "FastBer.Props.C44_decode_plain",
    "FastBer.Props.C44_violated_choice",
    "FastBer.Props.C44_violated_length",
    "FastBer.Props.C44_violated_tag"
   ],
   "note": "false of the code: C44_violated_*; exact guard proved sufficient"
  },
  {
   "property": "C45",
   "status": "partial",
   "theorems": [
    "FastBer.Props.C45_decode_terminates_partial",
    "FastBer.Props.C45_violated"
   ],
   "note": "false of the code: C45_violated (infinite loop)"
  },
  {
   "property": "C46",
   "status": "proved",
   "theorems": [
    "FastBer.Props.C46_wrong_header_rejected",
    "FastBer.Props.C46_outer"
   ],
   "note": "all well-formed schemas and objects (unbounded nesting)"
  },
  {
   "property": "C47",
   "status": "partial",
   "theorems": [
    "FastBer.Props.C47_truncation_never_accepted",
    "FastBer.Props.C47_truncation_rejected_partial",
    "FastBer.Props.C47_violated"
   ],
   "note": "false of the code: C47_violated (UB on truncated input)"
  },
  {
   "property": "C48",
   "status": "partial",
   "theorems": [
    "FastBer.Props.C48_reencode_partial"
   ],
   "note": "proved for unambiguous schemas"
  },
  {
   "property": "C49",
   "status": "partial",
   "theorems": [
    "FastBer.Props.C49_self_copy_violated",
    "FastBer.Props.C49_moved_from_violated",
    "FastBer.Props.C49_own_element_violated",
    "FastBer.Props.C49_throw_violated",
    "FastBer.Props.C49_history_partial",
    "FastBer.Props.C49_no_leak_partial",
    "FastBer.Props.C49_step_partial"
   ],
   "note": "false of the code in four ways (C49_*_violated); proved for all histories without self copy-assignment, copies of moved-from variants, own-element assignment and throwing constructors in assignments/emplace<T>. Allocation failure not modelled"
  },
  {
   "property": "C50",
   "status": "partial",
   "theorems": [
    "FastBer.Props.C50_eq_partial",
    "FastBer.Props.C50_ne_partial",
    "FastBer.Props.C50_gt_partial",
    "FastBer.Props.C50_le_partial",
    "FastBer.Props.C50_ge_partial",
    "FastBer.Props.C50_lt_index_partial",
    "FastBer.Props.C50_lt_violated",
    "FastBer.Props.C50_valueless_violated"
   ],
   "note": "==, !=, >, <=, >= proved for variants holding a value; < false (C50_lt_violated), valueless == throws (C50_valueless_violated)"
  },
  {
   "property": "C51",
   "status": "proved",
   "theorems": [
    "FastBer.Props.C51_history",
    "FastBer.Props.C51_copy_deep",
    "FastBer.Props.C51_assign_deep",
    "FastBer.Props.C51_eq"
   ],
   "note": "all histories; refinement to a value-level specification, deep copies, no leak"
  },
  {
   "property": "C52",
   "status": "partial",
   "theorems": [
    "FastBer.Props.C52_identifier",
    "FastBer.Props.C52_reserved_partial",
    "FastBer.Props.C52_distinct_partial",
    "FastBer.Props.C52_reserved_violated",
    "FastBer.Props.C52_distinct_violated"
   ],
   "note": "false for xor-eq and for names with underscores (C52_*_violated); otherwise proved for all names"
  },
  {
   "property": "C53",
   "status": "partial",
   "theorems": [
    "FastBer.Props.C53_deterministic",
    "FastBer.Props.C53_permutation",
    "FastBer.Props.C53_order_partial",
    "FastBer.Props.C53_dynamic_partial",
    "FastBer.Props.C53_violated"
   ],
   "note": "Permutation proved for all modules (C53_permutation). Order proved for modules without a nested SET that has a DEFAULT given by name (C53_order_partial); C53_violated shows the pass emits a wrong order otherwise. Dynamic storage only on cycles (C53_dynamic_partial)."
  },
  {
   "property": "C54",
   "status": "partial",
   "theorems": [
    "FastBer.Props.C54_terminates_partial",
    "FastBer.Props.C54_undefined_partial",
    "FastBer.Props.C54_cycles_partial",
    "FastBer.Props.C54_rejects_partial",
    "FastBer.Props.C54_accepts_partial",
    "FastBer.Props.C54_terminates_violated",
    "FastBer.Props.C54_violated",
    "FastBer.Props.C54_undefined_violated",
    "FastBer.Props.C54_enum_violated",
    "FastBer.Props.C54_foreign_violated"
   ],
   "note": "Undefined references and illegal cycles throw, and the pass terminates, provided no nested SET has a DEFAULT given by name and resolve_type terminates for the components with such defaults; converse (legal modules accepted) with side conditions. Violations of the unconditional statement exhibited: non-termination, undefined default accepted, legal modules rejected."
  },
  {
   "property": "C55",
   "status": "partial",
   "theorems": [
    "FastBer.Props.C55_order_partial",
    "FastBer.Props.C55_cycles_partial",
    "FastBer.Props.C55_terminates",
    "FastBer.Props.C55_violated"
   ],
   "note": "false when a module name is repeated (C55_violated); proved for all modules with distinct names (and, for the cycle criterion, defined imports); termination proved for all inputs"
  },
  {
   "property": "C56",
   "status": "proved",
   "theorems": [
    "FastBer.Props.C56_duplicates"
   ],
   "note": ""
  },
  {
   "property": "C57",
   "status": "partial",
   "theorems": [
    "FastBer.Props.C57_tags_partial",
    "FastBer.Props.C57_choice_partial",
    "FastBer.Props.C57_outer_partial",
    "FastBer.Props.C57_violated_triple",
    "FastBer.Props.C57_violated_choice",
    "FastBer.Props.C57_violated_automatic",
    "FastBer.Props.C57_violated_automatic_choice"
   ],
   "note": "false of the code (C57_violated_triple: middle explicit tags are lost; C57_violated_choice: an explicitly tagged CHOICE gets an extra [UNIVERSAL 0]; C57_violated_automatic, C57_violated_automatic_choice: AUTOMATIC TAGS). Proved: for types that lead to something other than CHOICE/ANY the tags computed are the first and last X.680 prescribes, hence right for up to two tags; CHOICE identifiers and decoder labels are exactly the possible outermost tags"
  },
  {
   "property": "C58",
   "status": "partial",
   "theorems": [
    "FastBer.Props.C58_set_partial",
    "FastBer.Props.C58_choice_partial",
    "FastBer.Props.C58_sequence_partial",
    "FastBer.Props.C58_sequence_violated",
    "FastBer.Props.C58_sequence_choice_violated",
    "FastBer.Props.C58_automatic_violated"
   ],
   "note": "false of the code (C58_sequence_violated, C58_sequence_choice_violated, C58_automatic_violated). Proved: SET and CHOICE checks accept exactly what X.680 allows in modules without AUTOMATIC TAGS and throw otherwise; the SEQUENCE check compares exactly neighbouring components that may be absent"
  },
  {
   "property": "C59",
   "status": "partial",
   "theorems": [
    "FastBer.Props.C59_hex_partial",
    "FastBer.Props.C59_hex_violated",
    "FastBer.Props.C59_odd_violated",
    "FastBer.Props.C59_bits_violated"
   ],
   "note": "false in general (C59_*_violated); exact characterisation of the hex strings that keep their value"
  },
  {
   "property": "C60",
   "status": "proved",
   "theorems": [
    "FastBer.Props.C60_balanced",
    "FastBer.Props.C60_indented"
   ],
   "note": "for every command tree over CodeBlock/CodeScope whose lines are brace-balanced"
  },
  {
   "property": "C61",
   "status": "partial",
   "theorems": [
    "FastBer.Props.C61_order",
    "FastBer.Props.C61_violated",
    "FastBer.Props.C61_one_partial",
    "FastBer.Props.C61_reversed_partial",
    "FastBer.Props.C61_tree_partial",
    "FastBer.Props.C61_unused_partial",
    "FastBer.Props.C61_components_violated",
    "FastBer.Props.C61_argument_violated"
   ],
   "note": "False as stated (C61_violated: the parser reverses argument lists, so templates with two or more parameters get swapped arguments). Proved: one-parameter templates (C61_one_partial), any number with the arguments reversed (C61_reversed_partial), whole trees (C61_tree_partial), trees without parameterized references (C61_unused_partial). Missing and false: COMPONENTS OF a parameter, parameterized references inside arguments."
  },
  {
   "property": "C62",
   "status": "partial",
   "theorems": [
    "FastBer.Props.C62_expands_partial",
    "FastBer.Props.C62_violated",
    "FastBer.Props.C62_lost_violated",
    "FastBer.Props.C62_crash_violated",
    "FastBer.Props.C62_scope_violated"
   ],
   "note": "False as stated (C62_violated, C62_lost_violated, C62_crash_violated, C62_scope_violated). C62_expands_partial proves it, with normal termination, for all trees meeting Expandable."
  },
  {
   "property": "C63",
   "status": "partial",
   "theorems": [
    "FastBer.Props.C63_terminates_violated",
    "FastBer.Props.C63_module_violated",
    "FastBer.Props.C63_result_partial",
    "FastBer.Props.C63_terminates_partial",
    "FastBer.Props.C63_deterministic",
    "FastBer.Props.C63_error_partial"
   ],
   "note": "false of the code (C63_terminates_violated: reference cycle across modules diverges; C63_module_violated: tagged references of another module are looked up in the wrong module). Proved: result, termination and error are exactly what the specification says when tagged unqualified references occur only in the calling module"
  },
  {
   "property": "C64",
   "status": "partial",
   "theorems": [
    "FastBer.Props.C64_violated",
    "FastBer.Props.C64_violated_one_octet",
    "FastBer.Props.C64_decode_x690_partial"
   ],
   "note": "false of the code (C64_violated); agrees with X.690 when the first octet is below 120"
  },
  {
   "property": "C65",
   "status": "proved",
   "theorems": [
    "FastBer.Props.C65_decode_iff_reads",
    "FastBer.Props.C65_sound"
   ],
   "note": "sound and complete against the relational reading spec"
  },
  {
   "property": "C66",
   "status": "partial",
   "theorems": [
    "FastBer.Props.C66_reachable_holds_partial",
    "FastBer.Props.C66_reachable_encodes_partial"
   ],
   "note": "proved for every history whose decoded inputs avoid the undefined-behaviour cases of C06/C44 and for schemas without a mandatory untagged CHOICE in a SEQUENCE"
  },
  {
   "property": "C67",
   "status": "proved",
   "theorems": [
    "FastBer.Props.C67_encode_denotes"
   ],
   "note": "every double, every buffer of at least ten bytes"
  },
  {
   "property": "C68",
   "status": "partial",
   "theorems": [
    "FastBer.Props.C68_violated",
    "FastBer.Props.C68_exponent_violated",
    "FastBer.Props.C68_decode_value_partial"
   ],
   "note": "false of the code (C68_violated, C68_exponent_violated); proved for one-octet exponents and two-octet long-form exponents, when the decoder ends; decimal form in C86"
  },
  {
   "property": "C69",
   "status": "proved",
   "theorems": [
    "FastBer.Props.C69_universal",
    "FastBer.Props.C69_timezone_text",
    "FastBer.Props.C69_timezone",
    "FastBer.Props.C69_timezone_shape",
    "FastBer.Props.C69_timezone_any",
    "FastBer.Props.C69_local",
    "FastBer.Props.C69_eq",
    "FastBer.Props.C69_eq_set"
   ],
   "note": "universal, zone offset and local forms; text written as in X.680 46"
  },
  {
   "property": "C70",
   "status": "partial",
   "theorems": [
    "FastBer.Props.C70_violated",
    "FastBer.Props.C70_readable_partial"
   ],
   "note": "false of the code (C70_violated: 18 00 then format()); proved for contents left by a successful decode"
  },
  {
   "property": "C71",
   "status": "partial",
   "theorems": [
    "FastBer.Props.C71_violated",
    "FastBer.Props.C71_others_partial"
   ],
   "note": "false of the code (C71_violated); what does hold is proved"
  },
  {
   "property": "C72",
   "status": "partial",
   "theorems": [
    "FastBer.Props.C72_default_violated",
    "FastBer.Props.C72_agrees_partial"
   ],
   "note": "false for DEFAULT members (C72_default_violated); proved for lists of plain and OPTIONAL members over sane contents"
  },
  {
   "property": "C73",
   "status": "proved",
   "theorems": [
    "FastBer.Props.C73_optional_decode",
    "FastBer.Props.C73_history_free"
   ],
   "note": ""
  },
  {
   "property": "C74",
   "status": "partial",
   "theorems": [
    "FastBer.Props.C74_chars_partial",
    "FastBer.Props.C74_quote_violated",
    "FastBer.Props.C74_backslash_violated"
   ],
   "note": "false for values with quotes or backslashes (C74_*_violated); exact characterisation proved"
  },
  {
   "property": "C75",
   "status": "proved",
   "theorems": [
    "FastBer.Props.C75_split",
    "FastBer.Props.C75_modules",
    "FastBer.Props.C75_clash_violated"
   ],
   "note": "For modules whose names are distinct and not of the made-up form (UnnamedSet<n> etc.); C75_clash_violated shows that a user name of that form is rejected later."
  },
  {
   "property": "C76",
   "status": "partial",
   "theorems": [
    "FastBer.Props.C76_encodes_partial",
    "FastBer.Props.C76_violated_capture",
    "FastBer.Props.C76_violated_automatic_optional",
    "FastBer.Props.C76_violated_automatic_reference",
    "FastBer.Props.C76_violated_lost_tag",
    "FastBer.Props.C76_violated_tagged_choice",
    "FastBer.Props.C76_encodes_recursive_partial"
   ],
   "note": "Proved for all supported schemas (Spec/Supported: names, tags the compiler translates, restrictions for AUTOMATIC TAGS) and assigned types whose tags are not lost; the excluded schemas are shown to be mistranslated (C76_violated_*). Schemas with circular references: the *_recursive_partial theorems, for those whose types can be default constructed."
  },
  {
   "property": "C77",
   "status": "partial",
   "theorems": [
    "FastBer.Props.C77_round_trip_partial",
    "FastBer.Props.C77_round_trip_recursive_partial"
   ],
   "note": "Proved for all supported, legal schemas and values that fit; see C76 for what is excluded and why. Schemas with circular references: the *_recursive_partial theorems, for those whose types can be default constructed."
  },
  {
   "property": "C78",
   "status": "partial",
   "theorems": [
    "FastBer.Props.C78_decodes_partial",
    "FastBer.Props.C78_decodes_recursive_partial"
   ],
   "note": "Proved for all supported, legal schemas without mandatory untagged CHOICE in a SEQUENCE, and definite-length encodings; the excluded cases are violations (C76_violated_*, C44_violated_*). Schemas with circular references: the *_recursive_partial theorems, for those whose types can be default constructed."
  },
  {
   "property": "C79",
   "status": "partial",
   "theorems": [
    "FastBer.Props.C79_compiles_partial",
    "FastBer.Props.C79_compiled",
    "FastBer.Props.C79_compiles_recursive_partial",
    "FastBer.Props.C79_compiled_recursive",
    "FastBer.Props.C79_violated_tagged_list",
    "FastBer.Props.C79_violated_list_chain",
    "FastBer.Props.C79_violated_imported_list",
    "FastBer.Props.C79_violated_same_name",
    "FastBer.Props.C79_violated_imported_enumerated"
   ],
   "note": "Proved: for every supported, legal schema whose made-up C++ names do not clash within a scope (Spec/Compilable, with a proved computable checker) the emitted declarations are accepted by the C++ model and every assigned type gets a C++ type; for circular schemas with the forward declarations (C79_compiles_recursive_partial), and there all types can be default constructed if every assigned type has a value to begin with (C79_compiled_recursive). The full claim is false: five legal schemas whose output does not compile (C79_violated_*)."
  },
  {
   "property": "C80",
   "status": "partial",
   "theorems": [
    "FastBer.Props.C80_terminates",
    "FastBer.Props.C80_result_partial",
    "FastBer.Props.C80_accepts",
    "FastBer.Props.C80_complete_partial",
    "FastBer.Props.C80_violated_nested_field",
    "FastBer.Props.C80_violated_imported_class",
    "FastBer.Props.C80_violated_lost_type",
    "FastBer.Props.C80_violated_class_alias"
   ],
   "note": "Termination (C80_terminates) and the exact condition for acceptance (C80_accepts) hold for all schemas with distinct names. Result: C80_result_partial for schemas that refer to other modules through imports, C80_complete_partial when field types use no fields; false otherwise (C80_violated_*)."
  },
  {
   "property": "C81",
   "status": "partial",
   "theorems": [
    "FastBer.Props.C81_meaning_partial"
   ],
   "note": "Schemas without parameterized types, COMPONENTS OF and information objects (those passes alone: C61, C62)."
  },
  {
   "property": "C82",
   "status": "partial",
   "theorems": [
    "FastBer.Props.C82_encodes_partial",
    "FastBer.Props.C82_round_trip_partial",
    "FastBer.Props.C82_decodes_partial",
    "FastBer.Props.C82_violated_lost_tag",
    "FastBer.Props.C82_violated_imported_list",
    "FastBer.Props.C82_violated_imported_parameterized",
    "FastBer.Props.C82_encodes_recursive_partial",
    "FastBer.Props.C82_round_trip_recursive_partial",
    "FastBer.Props.C82_decodes_recursive_partial",
    "FastBer.Props.C82_templates_partial",
    "FastBer.Props.C82_templates_compiled_partial"
   ],
   "note": "Proved from the parsed source through every pass of the compiler, the emitted declarations and the library, for sources without COMPONENTS OF and information objects (with parameterized types: C82_templates_partial, in terms of the expanded source) that meet Spec/SupportedSource and X.680's rules on tags. Missing, because false: the excluded sources (C82_violated_*, C76_violated_*, C79_violated_*). The C++ meaning of DEFAULT values is a parameter. Schemas with circular references: the *_recursive_partial theorems, for those whose types can be default constructed."
  },
  {
   "property": "C83",
   "status": "partial",
   "theorems": [
    "FastBer.Props.C83_equal_iff_partial",
    "FastBer.Props.C83_agrees_partial",
    "FastBer.Props.C83_reflexive_partial",
    "FastBer.Props.C83_nan",
    "FastBer.Props.C83_symmetric",
    "FastBer.Props.C83_same_value",
    "FastBer.Props.C83_distinguishes",
    "FastBer.Props.C83_assigned_partial",
    "FastBer.Props.C83_member",
    "FastBer.Props.C83_violated_infinity",
    "FastBer.Props.C83_violated_small",
    "FastBer.Props.C83_violated_transitive",
    "FastBer.Props.C83_violated"
   ],
   "note": "Exact characterisation of == in terms of value() (C83_equal_iff_partial: IEEE subtraction and multiplication modelled bit for bit), symmetric, reflexive except NaN, NaN never equal, agrees with the statement when the larger number is at least 1. The full statement is false (C83_violated: an infinity equals every number; all numbers below 2^-53 are equal; not transitive)."
  },
  {
   "property": "C84",
   "status": "partial",
   "theorems": [
    "FastBer.Props.C84_default",
    "FastBer.Props.C84_assign",
    "FastBer.Props.C84_assign_element",
    "FastBer.Props.C84_decode_partial",
    "FastBer.Props.C84_decode_invalid",
    "FastBer.Props.C84_from_packet",
    "FastBer.Props.C84_round_trip",
    "FastBer.Props.C84_resize_partial",
    "FastBer.Props.C84_copy",
    "FastBer.Props.C84_history_partial",
    "FastBer.Props.C84_violated_shrink",
    "FastBer.Props.C84_violated_long_tag",
    "FastBer.Props.C84_violated_copy",
    "FastBer.Props.C84_violated_moved_from",
    "FastBer.Props.C84_violated_content"
   ],
   "note": "Exact for construction, assignment, decoding, encoding, copying and round trips from any state; resizing exact for assigned packets, with undefined behaviour when it shrinks across a header size; histories exclude resizing packets with non-minimal identifier octets, assigning from invalid containers, reading moved-from ones, and views whose length overflows size_t (all shown to be violations)."
  },
  {
   "property": "C85",
   "status": "partial",
   "theorems": [
    "FastBer.Props.C85_encode",
    "FastBer.Props.C85_round_trip_first_partial",
    "FastBer.Props.C85_round_trip_partial",
    "FastBer.Props.C85_decode_iff_partial",
    "FastBer.Props.C85_equal_iff",
    "FastBer.Props.C85_any_round_trip",
    "FastBer.Props.C85_any_decode_partial",
    "FastBer.Props.C85_any_refuses",
    "FastBer.Props.C85_violated_any",
    "FastBer.Props.C85_violated_alternative",
    "FastBer.Props.C85_any_compiler"
   ],
   "note": "Encoding, round trip and an exact characterisation of decoding for every library CHOICE, on sane input (C44); false for ANY as stated: C85_violated_any, C85_violated_alternative."
  },
  {
   "property": "C86",
   "status": "partial",
   "theorems": [
    "FastBer.Props.C86_decode",
    "FastBer.Props.C86_refuses",
    "FastBer.Props.C86_accepts_iff_partial",
    "FastBer.Props.C86_unambiguous",
    "FastBer.Props.C86_value",
    "FastBer.Props.C86_violated_form",
    "FastBer.Props.C86_violated",
    "FastBer.Props.C86_violated_empty"
   ],
   "note": "false of the code: the form octet is not compared with the number (C86_violated_form) and a lone form octet reads outside the contents (C86_violated_empty). Proved: every ISO 6093 number in any of the three forms is read as the number it denotes whatever the form octet (C86_decode), everything else with a text is refused (C86_refuses), and the number is determined by the text (C86_unambiguous). The rounding of a decimal number to a double inside abseil is a parameter"
  },
  {
   "property": "C87",
   "status": "partial",
   "theorems": [
    "FastBer.Props.C87_lex",
    "FastBer.Props.C87_unique",
    "FastBer.Props.C87_layout",
    "FastBer.Props.C87_violated_apostrophe",
    "FastBer.Props.C87_violated_nested",
    "FastBer.Props.C87_violated_newline",
    "FastBer.Props.C87_violated_ignored",
    "FastBer.Props.C87_violated_misspelt",
    "FastBer.Props.C87_violated_spaced",
    "FastBer.Props.C87_violated_exponent",
    "FastBer.Props.C87_violated_number"
   ],
   "note": "false of the code for some items of X.680: an apostrophe ends a cstring, comments do not nest, VT and FF do not end a comment, PLUS-INFINITY, OID-IRI and ENCODING-CONTROL are read as names, white space in bstrings and hstrings, exponents, numbers of 2^63 and above, unknown characters are ignored (C87_violated_*). Proved: every file made of the remaining items, white space and comments is read as these items (C87_lex), uniquely (C87_unique)"
  },
  {
   "property": "C88",
   "status": "partial",
   "theorems": [
    "FastBer.Props.C88_terminates",
    "FastBer.Props.C88_bounds",
    "FastBer.Props.C88_safe",
    "FastBer.Props.C88_text",
    "FastBer.Props.C88_violated_unterminated",
    "FastBer.Props.C88_violated_backslash"
   ],
   "note": "false of the code: a file that ends within a comment or string is read behind its end (C88_violated_unterminated, C88_violated_backslash). Proved: termination on every file (C88_terminates), reads behind the end only if the file ends within a comment or string (C88_bounds), hence none for files of plain items (C88_text) and files that end with a line and have no quotes and no /* (C88_safe)"
  },
  {
   "property": "C89",
   "status": "partial",
   "theorems": [
    "FastBer.Props.C89_json_partial",
    "FastBer.Props.C89_unique",
    "FastBer.Props.C89_exit",
    "FastBer.Props.C89_safe_partial",
    "FastBer.Props.C89_safe_octets_partial",
    "FastBer.Props.C89_violated_real",
    "FastBer.Props.C89_violated_quotes",
    "FastBer.Props.C89_violated_time",
    "FastBer.Props.C89_violated_injection",
    "FastBer.Props.C89_violated_enumerated",
    "FastBer.Props.C89_violated_integer",
    "FastBer.Props.C89_violated_boolean",
    "FastBer.Props.C89_violated_dropped",
    "FastBer.Props.C89_violated_oid",
    "FastBer.Props.C89_violated_short_time",
    "FastBer.Props.C89_violated_isprint",
    "FastBer.Props.C89_violated_wrap"
   ],
   "note": "Proved for all elements (any nesting and size, any octets behind) whose primitive parts are Showable, with isprint false above 127; uniqueness of the JSON value; exit code; safety for files without overflowing headers and without times shorter than 5 octets. The full statement is false of the code: C89_violated_* (REAL, ENUMERATED, times, quotation marks, long INTEGERs, BOOLEANs of wrong length, dropped octets, short times, isprint, wrapping lengths, OIDs from 2.40 on)."
  },
  {
   "property": "C90",
   "status": "partial",
   "theorems": [
    "FastBer.Props.C90_new",
    "FastBer.Props.C90_encode",
    "FastBer.Props.C90_round_trip",
    "FastBer.Props.C90_equal",
    "FastBer.Props.C90_violated_default",
    "FastBer.Props.C90_generated_partial"
   ],
   "note": "Proved for all schemas whose definitions are well formed, default-constructible and unambiguous by tag number, and values whose times have 10 to 23 characters (as C33). Missing: types whose default constructor recurses (C90_violated_default), tags equal in number only (C33_violated), lengths from 2^64. That the compiler emits these types for circular schemas: C90_generated_partial."
  },
  {
   "property": "C91",
   "status": "partial",
   "theorems": [
    "FastBer.Props.C91_depth",
    "FastBer.Props.C91_returns",
    "FastBer.Props.C91_decode_safe_partial",
    "FastBer.Props.C91_decode_iff_reads",
    "FastBer.Props.C91_sound",
    "FastBer.Props.C91_violated_depth",
    "FastBer.Props.C91_generated_partial"
   ],
   "note": "Depth bound proved for every input. Returning and acceptance as in C44/C65: no mandatory component is an untagged CHOICE, no lengths or tag numbers near 2^64. With a stack of fixed size the claim is false (C91_violated_depth). For the types of a compiled schema: C91_generated_partial."
  },
  {
   "property": "C92",
   "status": "proved",
   "theorems": [
    "FastBer.Props.C92_parse",
    "FastBer.Props.C92_unique",
    "FastBer.Props.C92_files",
    "FastBer.Props.C92_enumerated",
    "FastBer.Props.C92_violated_tag_reference",
    "FastBer.Props.C92_violated_tag_number",
    "FastBer.Props.C92_violated_choice_extension",
    "FastBer.Props.C92_violated_boolean_value",
    "FastBer.Props.C92_violated_two_parameters",
    "FastBer.Props.C92_violated_null_parameter",
    "FastBer.Props.C92_violated_external_parameterized",
    "FastBer.Props.C92_violated_selection",
    "FastBer.Props.C92_violated_type_identifier",
    "FastBer.Props.C92_violated_oid_iri",
    "FastBer.Props.C92_violated_second_root",
    "FastBer.Props.C92_violated_rejected",
    "FastBer.Props.C92_violated_extensibility"
   ],
   "note": "Every notation of Spec/Notation.lean is read as its meaning, tokens and files; C92_violated_* show legal notation outside it that is misread or rejected."
  },
  {
   "property": "C93",
   "status": "proved",
   "theorems": [
    "FastBer.Props.C93_total",
    "FastBer.Props.C93_steps",
    "FastBer.Props.C93_files"
   ],
   "note": "All tokens and all files; the only undefined behaviour is that of the lexer (C88)."
  },
  {
   "property": "C94",
   "status": "proved",
   "theorems": [
    "FastBer.Props.C94_grammar"
   ],
   "note": "Relative to the grammar in asn_compiler.yacc, whose rules and actions the model takes from the source by tools/parser_gen.py."
  },
  {
   "property": "C95",
   "status": "partial",
   "theorems": [
    "FastBer.Props.C95_unique",
    "FastBer.Props.C95_numbers_partial",
    "FastBer.Props.C95_numbered",
    "FastBer.Props.C95_violated_after_number",
    "FastBer.Props.C95_violated_same_number",
    "FastBer.Props.C95_violated_additional",
    "FastBer.Props.C95_violated_reference"
   ],
   "note": "Proved when no unnumbered item follows a numbered one; false otherwise (C95_violated_*)."
  },
  {
   "property": "C96",
   "status": "partial",
   "theorems": [
    "FastBer.Props.C96_choice_file",
    "FastBer.Props.C96_self_reference",
    "FastBer.Props.C96_compile",
    "FastBer.Props.C96_rejects",
    "FastBer.Props.C96_encodes_partial",
    "FastBer.Props.C96_round_trip_partial",
    "FastBer.Props.C96_decodes_partial",
    "FastBer.Props.C96_prefixed_types_file",
    "FastBer.Props.C96_compile_recursive",
    "FastBer.Props.C96_encodes_recursive_partial",
    "FastBer.Props.C96_round_trip_recursive_partial",
    "FastBer.Props.C96_decodes_recursive_partial",
    "FastBer.Props.C96_set_file_partial",
    "FastBer.Props.C96_tags_file"
   ],
   "note": "Proved under the conditions of TextCompiled and SourceAssigned; outside them it is false (C76, C79, C82, C92 _violated_ theorems). Schemas with circular references: the *_recursive_partial theorems, for those whose types can be default constructed."
  },
  {
   "property": "C97",
   "status": "partial",
   "theorems": [
    "FastBer.Props.C97_unique",
    "FastBer.Props.C97_values_partial",
    "FastBer.Props.C97_default_partial",
    "FastBer.Props.C97_default_reference_partial",
    "FastBer.Props.C97_default_item",
    "FastBer.Props.C97_violated_boolean",
    "FastBer.Props.C97_violated_bits",
    "FastBer.Props.C97_violated_arc",
    "FastBer.Props.C97_violated_oid_reference",
    "FastBer.Props.C97_violated_oid_alias",
    "FastBer.Props.C97_violated_enumerated",
    "FastBer.Props.C97_violated_inline",
    "FastBer.Props.C97_violated_set_of",
    "FastBer.Props.C97_violated_imported"
   ],
   "note": "Values of the forms in Kept and names of such values; the rest is refuted by C97_violated_*."
  },
  {
   "property": "C98",
   "status": "partial",
   "theorems": [
    "FastBer.Props.C98_frontEnd_partial",
    "FastBer.Props.C98_compiles_partial",
    "FastBer.Props.C98_compiled_partial",
    "FastBer.Props.C98_violated_imported_value",
    "FastBer.Props.C98_violated_enum_value",
    "FastBer.Props.C98_violated_inline_list",
    "FastBer.Props.C98_violated_external",
    "FastBer.Props.C98_compiles_recursive_partial",
    "FastBer.Props.C98_compiled_recursive_partial",
    "FastBer.Props.C98_text_recursive_partial",
    "FastBer.Props.C98_text_compiled_recursive_partial",
    "FastBer.Props.C98_text_partial",
    "FastBer.Props.C98_text_compiled_partial",
    "FastBer.Props.C98_violated_later_list",
    "FastBer.Props.C98_violated_later_enum",
    "FastBer.Props.C98_templates_partial"
   ],
   "note": "C98_frontEnd_partial: every pass of the front end ends without an error; C98_compiles_partial: the output is valid C++; C98_compiles_recursive_partial, C98_compiled_recursive_partial: the same with recursive types, whose C++ types can be default constructed; C98_text_*: the same from the text of the files; C98_templates_partial: with parameterized types; all under conditions stated on the source alone. Missing: COMPONENTS OF and object classes; legal sources outside the conditions that are refused or for which invalid C++ is written: C98_violated_*."
  },
  {
   "property": "C99",
   "status": "partial",
   "theorems": [
    "FastBer.Props.C99_json_partial",
    "FastBer.Props.C99_compiled_partial",
    "FastBer.Props.C99_received_partial",
    "FastBer.Props.C99_safe",
    "FastBer.Props.C99_equal_objects",
    "FastBer.Props.C99_tells_apart_partial",
    "FastBer.Props.C99_violated_choice",
    "FastBer.Props.C99_violated_null",
    "FastBer.Props.C99_violated_binary",
    "FastBer.Props.C99_violated_quotes",
    "FastBer.Props.C99_violated_enumerated",
    "FastBer.Props.C99_violated_time",
    "FastBer.Props.C99_violated_throws"
   ],
   "note": "Proved for all types that are not recursive and all objects that hold a value: no undefined behaviour (C99_safe); equal objects are printed the same (C99_equal_objects); the text is JSON that tells the value, also for compiled schemas and for what is received (C99_json_partial, C99_compiled_partial, C99_received_partial) if text has no quotation marks or backslashes, enumerators are known and there are no times; how a REAL is shown is a parameter. Objects printed the same are equal (C99_tells_apart_partial) for types without CHOICE, OPTIONAL NULL, OBJECT IDENTIFIER, REAL and times and printable text. The English claim is false without these restrictions: C99_violated_*."
  },
  {
   "property": "C100",
   "status": "partial",
   "theorems": [
    "FastBer.Props.C100_forward_partial",
    "FastBer.Props.C100_backward_partial",
    "FastBer.Props.C100_forward_recursive_partial",
    "FastBer.Props.C100_backward_recursive_partial",
    "FastBer.Props.C100_violated_mandatory",
    "FastBer.Props.C100_violated_alternative",
    "FastBer.Props.C100_violated_second_root",
    "FastBer.Props.C100_violated_implied",
    "FastBer.Props.C100_forward_text_partial",
    "FastBer.Props.C100_backward_text_partial",
    "FastBer.Props.C100_new_to_old_partial",
    "FastBer.Props.C100_old_to_new_partial",
    "FastBer.Props.C100_new_to_old_recursive_partial",
    "FastBer.Props.C100_old_to_new_recursive_partial"
   ],
   "note": "Proved for all types, recursive ones included (*_recursive), and versions that differ in components added at the end of types with an extension marker and alternatives added at the end: the old program decodes every message of the new one without unknown alternatives to exactly the part it knows (C100_forward_partial), and the new program every message of the old one if the additions may be absent (C100_backward_partial). False, with counterexamples: mandatory additions, additions in front of a second root part, EXTENSIBILITY IMPLIED; a message with an unknown alternative is refused as a whole. Also from the text of the files, and for two programs that talk to each other: what one writes, the other reads (C100_*_text_partial, C100_new_to_old_*, C100_old_to_new_*)."
  },
  {
   "property": "C101",
   "status": "partial",
   "theorems": [
    "FastBer.Props.C101_sample",
    "FastBer.Props.C101_any_file_partial"
   ],
   "note": "C101_sample: the round trip for every team, from the literal text of testfiles/pokemon.asn through the whole compiler; C101_any_file_partial: every file, except those with tag numbers or lengths near 2^64 (Sane)"
  }
 ]
}