{
 "claims": [
  {
   "property": "C01",
   "status": "proved",
   "theorems": [
    "Verif.C01_segments",
    "Verif.C01_epochs_tags",
    "Verif.C01_infinities",
    "Verif.C01_trichotomy",
    "Verif.C01_trans",
    "Verif.C01_operators_agree",
    "Verif.C01_congr"
   ],
   "note": ""
  },
  {
   "property": "C02",
   "status": "proved",
   "theorems": [
    "Verif.C02_eq_iff",
    "Verif.C02_release_order",
    "Verif.C02_negative_parts"
   ],
   "note": ""
  },
  {
   "property": "C03",
   "status": "proved",
   "theorems": [
    "Verif.C03_stage_order",
    "Verif.C03_pre_number",
    "Verif.C03_post_number",
    "Verif.C03_post_of_pre",
    "Verif.C03_dev_below",
    "Verif.C03_dev_number"
   ],
   "note": ""
  },
  {
   "property": "C04",
   "status": "proved",
   "theorems": [
    "Verif.C04_local_above",
    "Verif.C04_first_difference",
    "Verif.C04_prefix",
    "Verif.C04_parts_total"
   ],
   "note": ""
  },
  {
   "property": "C05",
   "status": "proved",
   "theorems": [
    "Verif.C05_versions",
    "Verif.C05_segments",
    "Verif.C05_sets",
    "Verif.C05_specifiers",
    "Verif.C05_violation",
    "Verif.C05_lookup"
   ],
   "note": "For arbitrary hash functions of the built-in types; the violation by specifiers is a theorem."
  },
  {
   "property": "C06",
   "status": "proved",
   "theorems": [
    "Verif.C06_set_at",
    "Verif.C06_get_at",
    "Verif.C06_get_set",
    "Verif.C06_unchecked"
   ],
   "note": ""
  },
  {
   "property": "C07",
   "status": "proved",
   "theorems": [
    "Verif.C07_next_at",
    "Verif.C07_next_at_above",
    "Verif.C07_next_at_least"
   ],
   "note": "Strictly-greater needs non-negative parts in the original (C02_negative_parts shows why)."
  },
  {
   "property": "C08",
   "status": "proved",
   "theorems": [
    "Verif.C08_to_semantic"
   ],
   "note": "For releases without negative parts."
  },
  {
   "property": "C09",
   "status": "proved",
   "theorems": [
    "Verif.C09_padding"
   ],
   "note": ""
  },
  {
   "property": "C10",
   "status": "proved",
   "theorems": [
    "Verif.C10_next_at",
    "Verif.C10_named",
    "Verif.C10_parts"
   ],
   "note": "For releases without negative parts."
  },
  {
   "property": "C11",
   "status": "proved",
   "theorems": [
    "Verif.C11_default_tags",
    "Verif.C11_next_post",
    "Verif.C11_next_pre",
    "Verif.C11_next_pre_absent",
    "Verif.C11_next_pre_phase",
    "Verif.C11_next_dev"
   ],
   "note": ""
  },
  {
   "property": "C12",
   "status": "proved",
   "theorems": [
    "Verif.C12_to_stable"
   ],
   "note": ""
  },
  {
   "property": "C13",
   "status": "proved",
   "theorems": [
    "Verif.C13_index",
    "Verif.C13_caret",
    "Verif.C13_caret_final",
    "Verif.C13_caret_unstable",
    "Verif.C13_caret_unstable_zero"
   ],
   "note": ""
  },
  {
   "property": "C14",
   "status": "proved",
   "theorems": [
    "Verif.C14_normalize",
    "Verif.C14_normal_form",
    "Verif.C14_unchanged",
    "Verif.C14_order_not_preserved"
   ],
   "note": ""
  },
  {
   "property": "C15",
   "status": "proved",
   "theorems": [
    "Verif.C15_translation_exact"
   ],
   "note": ""
  },
  {
   "property": "C16",
   "status": "proved",
   "theorems": [
    "Verif.C16_failure",
    "Verif.C16_accepts",
    "Verif.C16_example",
    "Verif.C16_accepts_total"
   ],
   "note": ""
  },
  {
   "property": "C17",
   "status": "proved",
   "theorems": [
    "Verif.C17_tilde_equal",
    "Verif.C17_tilde_equal_final",
    "Verif.C17_constructor"
   ],
   "note": ""
  },
  {
   "property": "C18",
   "status": "proved",
   "theorems": [
    "Verif.C18_tilde",
    "Verif.C18_tilde_final",
    "Verif.C18_tilde_unstable",
    "Verif.C18_star",
    "Verif.C18_wildcard_general",
    "Verif.C18_wildcard",
    "Verif.C18_wildcard_post",
    "Verif.C18_wildcard_unstable",
    "Verif.C18_wildcard_not"
   ],
   "note": ""
  },
  {
   "property": "C19",
   "status": "proved",
   "theorems": [
    "Verif.C19_built_normal",
    "Verif.C19_normal_closed",
    "Verif.C19_normal_meaning"
   ],
   "note": "C19_built_normal: induction over everything a program can build."
  },
  {
   "property": "C20",
   "status": "proved",
   "theorems": [
    "Verif.C20_intersection_exact"
   ],
   "note": ""
  },
  {
   "property": "C21",
   "status": "proved",
   "theorems": [
    "Verif.C21_union_exact"
   ],
   "note": ""
  },
  {
   "property": "C22",
   "status": "proved",
   "theorems": [
    "Verif.C22_union_returns",
    "Verif.C22_union_diverges",
    "Verif.C22_example"
   ],
   "note": "lim counts nested calls of union on ranges and points; 'returns' means the same result for every limit from 2 on."
  },
  {
   "property": "C23",
   "status": "proved",
   "theorems": [
    "Verif.C23_difference_exact",
    "Verif.C23_covered_range",
    "Verif.C23_union_minus_empty",
    "Verif.C23_violations"
   ],
   "note": "Includes the two violations as theorems."
  },
  {
   "property": "C24",
   "status": "proved",
   "theorems": [
    "Verif.C24_complement_exact",
    "Verif.C24_complement_involutive"
   ],
   "note": ""
  },
  {
   "property": "C25",
   "status": "proved",
   "theorems": [
    "Verif.C25_symmetric_difference",
    "Verif.C25_other_cases",
    "Verif.C25_violation"
   ],
   "note": "Includes the violation as a theorem."
  },
  {
   "property": "C26",
   "status": "proved",
   "theorems": [
    "Verif.C26_includes"
   ],
   "note": "The converse is over well-formed versions (Version.Wf): only there versions are dense."
  },
  {
   "property": "C27",
   "status": "proved",
   "theorems": [
    "Verif.C27_intersects_iff_intersection",
    "Verif.C27_intersects_iff_common",
    "Verif.C27_intersects_symm"
   ],
   "note": ""
  },
  {
   "property": "C28",
   "status": "proved",
   "theorems": [
    "Verif.C28_eq_iff_same_versions",
    "Verif.C28_eq_same_versions",
    "Verif.C28_equivalence"
   ],
   "note": ""
  },
  {
   "property": "C29",
   "status": "proved",
   "theorems": [
    "Verif.C29_intersection_comm",
    "Verif.C29_intersection_assoc",
    "Verif.C29_idempotent",
    "Verif.C29_union_comm",
    "Verif.C29_union_assoc",
    "Verif.C29_absorption",
    "Verif.C29_distributive",
    "Verif.C29_distributive_union",
    "Verif.C29_de_morgan",
    "Verif.C29_complement_laws",
    "Verif.C29_bounds"
   ],
   "note": ""
  },
  {
   "property": "C30",
   "status": "proved",
   "theorems": [
    "Verif.C30_compare_lexicographic",
    "Verif.C30_total_order"
   ],
   "note": ""
  },
  {
   "property": "C31",
   "status": "proved",
   "theorems": [
    "Verif.C31_unionOf_exact",
    "Verif.C31_unionOf_perm"
   ],
   "note": ""
  },
  {
   "property": "C32",
   "status": "proved",
   "theorems": [
    "Verif.C32_conversion_exact",
    "Verif.C32_accepts_total"
   ],
   "note": ""
  },
  {
   "property": "C33",
   "status": "proved",
   "theorems": [
    "Verif.C33_round_trip",
    "Verif.C33_equal_sets"
   ],
   "note": ""
  },
  {
   "property": "C34",
   "status": "proved",
   "theorems": [
    "Verif.C34_simplify",
    "Verif.C34_simplify_returns"
   ],
   "note": "Idempotence for every recursion limit from 2 on."
  },
  {
   "property": "C35",
   "status": "proved",
   "theorems": [
    "Verif.C35_any",
    "Verif.C35_all",
    "Verif.C35_constructors"
   ],
   "note": ""
  },
  {
   "property": "C36",
   "status": "proved",
   "theorems": [
    "Verif.C36_history_independent",
    "Verif.C36_simple_operators",
    "Verif.C36_first_call",
    "Verif.C36_violation",
    "Verif.C36_specifier_equivalence"
   ],
   "note": "Includes the violation as a theorem; the positive part is for any collection of operators in which equal operators are simple or on the same version."
  },
  {
   "property": "C37",
   "status": "proved",
   "theorems": [
    "Verif.C37_history_independent"
   ],
   "note": ""
  },
  {
   "property": "C38",
   "status": "proved",
   "theorems": [
    "Verif.C38_short_round_trip",
    "Verif.C38_short_injective"
   ],
   "note": ""
  },
  {
   "property": "C39",
   "status": "proved",
   "theorems": [
    "Verif.C39_round_trip",
    "Verif.C39_candidate",
    "Verif.C39_iff"
   ],
   "note": ""
  },
  {
   "property": "C40",
   "status": "proved",
   "theorems": [
    "Verif.C40_canonical",
    "Verif.C40_round_trip",
    "Verif.C40_iff"
   ],
   "note": ""
  },
  {
   "property": "C41",
   "status": "proved",
   "theorems": [
    "Verif.C41_parse_iff",
    "Verif.C41_spellings",
    "Verif.C41_leading_v",
    "Verif.C41_pre_dash_number"
   ],
   "note": ""
  },
  {
   "property": "C42",
   "status": "proved",
   "theorems": [
    "Verif.C42_errors",
    "Verif.C42_parse_version_error",
    "Verif.C42_value_error",
    "Verif.C42_success"
   ],
   "note": ""
  },
  {
   "property": "C43",
   "status": "proved",
   "theorems": [
    "Verif.C43_spaces",
    "Verif.C43_whitespace",
    "Verif.C43_pipes",
    "Verif.C43_parts"
   ],
   "note": "| and || are interchangeable between parts that have no pipes and, except the first and last, are not blank; an example shows `1 | | 2` is read as `1 || 2` whereas `1 || || 2` fails."
  },
  {
   "property": "C44",
   "status": "proved",
   "theorems": [
    "Verif.C44_short",
    "Verif.C44_long",
    "Verif.C44_wildcard_short",
    "Verif.C44_wildcard_long",
    "Verif.C44_wildcard_zero",
    "Verif.C44_local_fails",
    "Verif.C44_candidate_fails"
   ],
   "note": "Local versions are covered in =, ==, != and proved unreadable elsewhere; long strings need no candidate tag, and are proved unreadable with one; wildcards are read with 0 as the last number."
  },
  {
   "property": "C45",
   "status": "proved",
   "theorems": [
    "Verif.C45_short",
    "Verif.C45_long",
    "Verif.C45_empty"
   ],
   "note": "Long strings need ends without candidate tag (C44_candidate_fails shows why). C45_empty: the violation for the empty set."
  },
  {
   "property": "C46",
   "status": "proved",
   "theorems": [
    "Verif.C46_not_read",
    "Verif.C46_parentheses"
   ],
   "note": ""
  },
  {
   "property": "C47",
   "status": "proved",
   "theorems": [
    "Verif.C47_version",
    "Verif.C47_specifier",
    "Verif.C47_version_set",
    "Verif.C47_violation"
   ],
   "note": "version_type left at its default. parse_version_set under the hypothesis of C36; C47_violation is the failure without it."
  },
  {
   "property": "C48",
   "status": "proved",
   "theorems": [
    "Verif.C48_ends_from_operands"
   ],
   "note": ""
  },
  {
   "property": "C49",
   "status": "proved",
   "theorems": [
    "Verif.C49_congruence"
   ],
   "note": ""
  },
  {
   "property": "C50",
   "status": "proved",
   "theorems": [
    "Verif.C50_single",
    "Verif.C50_grammar",
    "Verif.C50_default",
    "Verif.C50_wildcards"
   ],
   "note": ""
  },
  {
   "property": "C51",
   "status": "proved",
   "theorems": [
    "Verif.C51_errors",
    "Verif.C51_specification_error",
    "Verif.C51_version_error",
    "Verif.C51_value_error",
    "Verif.C51_pipes",
    "Verif.C51_comma_parts",
    "Verif.C51_commas"
   ],
   "note": ""
  },
  {
   "property": "C52",
   "status": "proved",
   "theorems": [
    "Verif.C52_valid",
    "Verif.C52_accepts",
    "Verif.C52_pipes",
    "Verif.C52_commas"
   ],
   "note": ""
  },
  {
   "property": "C53",
   "status": "proved",
   "theorems": [
    "Verif.C53_set",
    "Verif.C53_error",
    "Verif.C53_single"
   ],
   "note": ""
  },
  {
   "property": "C54",
   "status": "proved",
   "theorems": [
    "Verif.C54_in",
    "Verif.C54_and",
    "Verif.C54_or",
    "Verif.C54_sub",
    "Verif.C54_xor",
    "Verif.C54_union_fails",
    "Verif.C54_invert_fails",
    "Verif.C54_chain",
    "Verif.C54_example"
   ],
   "note": ""
  },
  {
   "property": "C55",
   "status": "proved",
   "theorems": [
    "Verif.C55_empty_range",
    "Verif.C55_point",
    "Verif.C55_universal_range",
    "Verif.C55_sets",
    "Verif.C55_exclude_version"
   ],
   "note": ""
  },
  {
   "property": "C56",
   "status": "proved",
   "theorems": [
    "Verif.C56_intersection",
    "Verif.C56_includes",
    "Verif.C56_intersects",
    "Verif.C56_empty_ranges_diverge",
    "Verif.C56_empty_ranges",
    "Verif.C56_point_range"
   ],
   "note": ""
  },
  {
   "property": "C57",
   "status": "proved",
   "theorems": [
    "Verif.C57_order",
    "Verif.C57_intersection_glb",
    "Verif.C57_union_lub",
    "Verif.C57_complement",
    "Verif.C57_meet_join",
    "Verif.C57_monotone",
    "Verif.C57_difference"
   ],
   "note": ""
  },
  {
   "property": "C58",
   "status": "proved",
   "theorems": [
    "Verif.C58_reached",
    "Verif.C58_sizes",
    "Verif.C58_union_of"
   ],
   "note": ""
  },
  {
   "property": "C59",
   "status": "proved",
   "theorems": [
    "Verif.C59_pep440",
    "Verif.C59_strings",
    "Verif.C59_fixed",
    "Verif.C59_idempotent",
    "Verif.C59_injective",
    "Verif.C59_violation"
   ],
   "note": ""
  },
  {
   "property": "C60",
   "status": "proved",
   "theorems": [
    "Verif.C60_order"
   ],
   "note": ""
  },
  {
   "property": "C61",
   "status": "proved",
   "theorems": [
    "Verif.C61_string",
    "Verif.C61_order",
    "Verif.C61_fails"
   ],
   "note": ""
  },
  {
   "property": "C62",
   "status": "proved",
   "theorems": [
    "Verif.C62_main",
    "Verif.C62_get_version"
   ],
   "note": ""
  },
  {
   "property": "C63",
   "status": "proved",
   "theorems": [
    "Verif.C63_epoch",
    "Verif.C63_epoch_fails",
    "Verif.C63_release",
    "Verif.C63_tag",
    "Verif.C63_tag_negative",
    "Verif.C63_local_total",
    "Verif.C63_local"
   ],
   "note": ""
  },
  {
   "property": "C64",
   "status": "proved",
   "theorems": [
    "Verif.C64_back",
    "Verif.C64_next_back",
    "Verif.C64_before_start",
    "Verif.C64_slice",
    "Verif.C64_slice_below"
   ],
   "note": ""
  },
  {
   "property": "C65",
   "status": "proved",
   "theorems": [
    "Verif.C65_without_local",
    "Verif.C65_without_post",
    "Verif.C65_without_dev",
    "Verif.C65_without_pre",
    "Verif.C65_weaken",
    "Verif.C65_weaken_laws",
    "Verif.C65_weaken_order"
   ],
   "note": ""
  },
  {
   "property": "C66",
   "status": "proved",
   "theorems": [
    "Verif.C66_least",
    "Verif.C66_no_greatest",
    "Verif.C66_dense"
   ],
   "note": ""
  },
  {
   "property": "C67",
   "status": "proved",
   "theorems": [
    "Verif.C67_includes",
    "Verif.C67_eq",
    "Verif.C67_intersects",
    "Verif.C67_parsed",
    "Verif.C67_strings",
    "Verif.C67_violation"
   ],
   "note": ""
  },
  {
   "property": "C68",
   "status": "proved",
   "theorems": [
    "Verif.C68_equal"
   ],
   "note": ""
  },
  {
   "property": "C69",
   "status": "proved",
   "theorems": [
    "Verif.C69_at_least_at_most"
   ],
   "note": ""
  },
  {
   "property": "C70",
   "status": "proved",
   "theorems": [
    "Verif.C70_below",
    "Verif.C70_above"
   ],
   "note": ""
  },
  {
   "property": "C71",
   "status": "proved",
   "theorems": [
    "Verif.C71_compatible",
    "Verif.C71_prefix"
   ],
   "note": ""
  },
  {
   "property": "C72",
   "status": "proved",
   "theorems": [
    "Verif.C72_final"
   ],
   "note": ""
  },
  {
   "property": "C73",
   "status": "proved",
   "theorems": [
    "Verif.C73_caret",
    "Verif.C73_tilde",
    "Verif.C73_tilde_equal",
    "Verif.C73_violation"
   ],
   "note": ""
  },
  {
   "property": "C74",
   "status": "proved",
   "theorems": [
    "Verif.C74_least",
    "Verif.C74_monotone"
   ],
   "note": ""
  },
  {
   "property": "C75",
   "status": "proved",
   "theorems": [
    "Verif.C75_or",
    "Verif.C75_and",
    "Verif.C75_or_set",
    "Verif.C75_returns",
    "Verif.C75_and_set",
    "Verif.C75_and_comm",
    "Verif.C75_or_comm",
    "Verif.C75_implication"
   ],
   "note": ""
  },
  {
   "property": "C76",
   "status": "proved",
   "theorems": [
    "Verif.C76_closed",
    "Verif.C76_bounded",
    "Verif.C76_strictly",
    "Verif.C76_lower",
    "Verif.C76_higher",
    "Verif.C76_adjacent"
   ],
   "note": ""
  },
  {
   "property": "C77",
   "status": "proved",
   "theorems": [
    "Verif.C77_read",
    "Verif.C77_has",
    "Verif.C77_set",
    "Verif.C77_laws"
   ],
   "note": ""
  },
  {
   "property": "C78",
   "status": "proved",
   "theorems": [
    "Verif.C78_chain",
    "Verif.C78_absorb",
    "Verif.C78_breaking",
    "Verif.C78_breaking_unstable"
   ],
   "note": ""
  },
  {
   "property": "C79",
   "status": "proved",
   "theorems": [
    "Verif.C79_or",
    "Verif.C79_and",
    "Verif.C79_or_returns",
    "Verif.C79_apart",
    "Verif.C79_safe",
    "Verif.C79_pair"
   ],
   "note": ""
  },
  {
   "property": "C80",
   "status": "proved",
   "theorems": [
    "Verif.C80_order",
    "Verif.C80_normalize",
    "Verif.C80_violation",
    "Verif.C80_local_violation"
   ],
   "note": ""
  },
  {
   "property": "C81",
   "status": "proved",
   "theorems": [
    "Verif.C81_text",
    "Verif.C81_normal",
    "Verif.C81_same"
   ],
   "note": ""
  },
  {
   "property": "C82",
   "status": "proved",
   "theorems": [
    "Verif.C82_constructors",
    "Verif.C82_classes",
    "Verif.C82_equal",
    "Verif.C82_string"
   ],
   "note": ""
  },
  {
   "property": "C83",
   "status": "proved",
   "theorems": [
    "Verif.C83_string",
    "Verif.C83_repr",
    "Verif.C83_frame",
    "Verif.C83_parts",
    "Verif.C83_tag"
   ],
   "note": ""
  },
  {
   "property": "C84",
   "status": "proved",
   "theorems": [
    "Verif.C84_engine",
    "Verif.C84_linear",
    "Verif.C84_specification",
    "Verif.C84_exponential"
   ],
   "note": ""
  },
  {
   "property": "C85",
   "status": "proved",
   "theorems": [
    "Verif.C85_equal",
    "Verif.C85_conversions",
    "Verif.C85_guards",
    "Verif.C85_kinds"
   ],
   "note": ""
  },
  {
   "property": "C86",
   "status": "proved",
   "theorems": [
    "Verif.C86_shape",
    "Verif.C86_size",
    "Verif.C86_near_least",
    "Verif.C86_sharp"
   ],
   "note": ""
  },
  {
   "property": "C87",
   "status": "proved",
   "theorems": [
    "Verif.C87_loop",
    "Verif.C87_once",
    "Verif.C87_compute",
    "Verif.C87_again_violation"
   ],
   "note": ""
  },
  {
   "property": "C88",
   "status": "proved",
   "theorems": [
    "Verif.C88_range",
    "Verif.C88_joined",
    "Verif.C88_conversion",
    "Verif.C88_conjunctive",
    "Verif.C88_parse"
   ],
   "note": ""
  },
  {
   "property": "C89",
   "status": "proved",
   "theorems": [
    "Verif.C89_equality",
    "Verif.C89_classes",
    "Verif.C89_outcome",
    "Verif.C89_order",
    "Verif.C89_infinities",
    "Verif.C89_extended"
   ],
   "note": ""
  },
  {
   "property": "C90",
   "status": "proved",
   "theorems": [
    "Verif.C90_shortest",
    "Verif.C90_unique",
    "Verif.C90_results"
   ],
   "note": ""
  },
  {
   "property": "C91",
   "status": "proved",
   "theorems": [
    "Verif.C91_versions",
    "Verif.C91_sets",
    "Verif.C91_specifiers",
    "Verif.C91_quadratic",
    "Verif.C91_dictionary",
    "Verif.C91_calls"
   ],
   "note": ""
  },
  {
   "property": "C92",
   "status": "proved",
   "theorems": [
    "Verif.C92_strings",
    "Verif.C92_disjoint",
    "Verif.C92_base",
    "Verif.C92_methods",
    "Verif.C92_create",
    "Verif.C92_default_value"
   ],
   "note": ""
  },
  {
   "property": "C93",
   "status": "proved",
   "theorems": [
    "Verif.C93_short",
    "Verif.C93_long",
    "Verif.C93_short_injective",
    "Verif.C93_long_injective",
    "Verif.C93_empty",
    "Verif.C93_equal_ends"
   ],
   "note": ""
  },
  {
   "property": "C94",
   "status": "proved",
   "theorems": [
    "Verif.C94_same",
    "Verif.C94_queries",
    "Verif.C94_intersection",
    "Verif.C94_union",
    "Verif.C94_difference",
    "Verif.C94_conversion",
    "Verif.C94_quadratic"
   ],
   "note": ""
  },
  {
   "property": "C95",
   "status": "proved",
   "theorems": [
    "Verif.C95_operators",
    "Verif.C95_cache",
    "Verif.C95_cache_exact",
    "Verif.C95_values",
    "Verif.C95_changes",
    "Verif.C95_breaking",
    "Verif.C95_semantic"
   ],
   "note": ""
  },
  {
   "property": "C96",
   "status": "proved",
   "theorems": [
    "Verif.C96_sessions",
    "Verif.C96_only_if",
    "Verif.C96_spelling"
   ],
   "note": ""
  },
  {
   "property": "C97",
   "status": "proved",
   "theorems": [
    "Verif.C97_threads",
    "Verif.C97_through",
    "Verif.C97_alone",
    "Verif.C97_race"
   ],
   "note": ""
  },
  {
   "property": "C98",
   "status": "proved",
   "theorems": [
    "Verif.C98_meaning"
   ],
   "note": ""
  },
  {
   "property": "C99",
   "status": "proved",
   "theorems": [
    "Verif.C99_compare",
    "Verif.C99_one_class",
    "Verif.C99_operator",
    "Verif.C99_contains",
    "Verif.C99_translation",
    "Verif.C99_blind",
    "Verif.C99_items",
    "Verif.C99_ranges",
    "Verif.C99_equal"
   ],
   "note": ""
  },
  {
   "property": "C100",
   "status": "proved",
   "theorems": [
    "Verif.C100_version",
    "Verif.C100_no_limit",
    "Verif.C100_specifier",
    "Verif.C100_set",
    "Verif.C100_version_strings",
    "Verif.C100_specifier_strings",
    "Verif.C100_set_strings",
    "Verif.C100_round_trip",
    "Verif.C100_canonical",
    "Verif.C100_specifier_prints",
    "Verif.C100_bump",
    "Verif.C100_nines"
   ],
   "note": ""
  },
  {
   "property": "C101",
   "status": "proved",
   "theorems": [
    "Verif.C101_default",
    "Verif.C101_grammar",
    "Verif.C101_form",
    "Verif.C101_call",
    "Verif.C101_agree",
    "Verif.C101_map"
   ],
   "note": ""
  },
  {
   "property": "C102",
   "status": "proved",
   "theorems": [
    "Verif.C102_default",
    "Verif.C102_versions",
    "Verif.C102_epoch",
    "Verif.C102_release",
    "Verif.C102_local",
    "Verif.C102_round_trip",
    "Verif.C102_ascii"
   ],
   "note": ""
  },
  {
   "property": "C103",
   "status": "proved",
   "theorems": [
    "Verif.C103_string",
    "Verif.C103_short",
    "Verif.C103_exact",
    "Verif.C103_repr",
    "Verif.C103_frame",
    "Verif.C103_sets",
    "Verif.C103_total"
   ],
   "note": ""
  },
  {
   "property": "C104",
   "status": "proved",
   "theorems": [
    "Verif.C104_sets",
    "Verif.C104_item",
    "Verif.C104_empty",
    "Verif.C104_union",
    "Verif.C104_returns",
    "Verif.C104_of",
    "Verif.C104_operators",
    "Verif.C104_contains_range",
    "Verif.C104_contains"
   ],
   "note": ""
  },
  {
   "property": "C105",
   "status": "proved",
   "theorems": [
    "Verif.C105_tag",
    "Verif.C105_version",
    "Verif.C105_wildcard",
    "Verif.C105_specification",
    "Verif.C105_union",
    "Verif.C105_set"
   ],
   "note": ""
  },
  {
   "property": "C106",
   "status": "proved",
   "theorems": [
    "Verif.C106_one_class",
    "Verif.C106_parse",
    "Verif.C106_classless",
    "Verif.C106_union",
    "Verif.C106_intersection",
    "Verif.C106_difference",
    "Verif.C106_includes",
    "Verif.C106_intersects"
   ],
   "note": ""
  },
  {
   "property": "C107",
   "status": "proved",
   "theorems": [
    "Verif.C107_specifiers",
    "Verif.C107_sets",
    "Verif.C107_mixed",
    "Verif.C107_independent",
    "Verif.C107_one_class",
    "Verif.C107_parse"
   ],
   "note": ""
  },
  {
   "property": "C108",
   "status": "proved",
   "theorems": [
    "Verif.C108_satisfiable",
    "Verif.C108_all",
    "Verif.C108_implies",
    "Verif.C108_compatible",
    "Verif.C108_same",
    "Verif.C108_pinned"
   ],
   "note": ""
  },
  {
   "property": "C109",
   "status": "proved",
   "theorems": [
    "Verif.C109_specifiers",
    "Verif.C109_sets",
    "Verif.C109_exceptions",
    "Verif.C109_parse_version_set",
    "Verif.C109_classes"
   ],
   "note": ""
  },
  {
   "property": "C110",
   "status": "proved",
   "theorems": [
    "Verif.C110_violation",
    "Verif.C110_between_specifiers",
    "Verif.C110_between_sets"
   ],
   "note": ""
  },
  {
   "property": "C111",
   "status": "proved",
   "theorems": [
    "Verif.C111_tilde_caret",
    "Verif.C111_tilde_equal_tilde",
    "Verif.C111_tilde_equal_caret",
    "Verif.C111_wildcard",
    "Verif.C111_unstable",
    "Verif.C111_opposite",
    "Verif.C111_opposite_sets",
    "Verif.C111_at_least"
   ],
   "note": ""
  },
  {
   "property": "C112",
   "status": "proved",
   "theorems": [
    "Verif.C112_call",
    "Verif.C112_made",
    "Verif.C112_read_back",
    "Verif.C112_negative",
    "Verif.C112_exceptions"
   ],
   "note": ""
  },
  {
   "property": "C113",
   "status": "proved",
   "theorems": [
    "Verif.C113_contains",
    "Verif.C113_of",
    "Verif.C113_union",
    "Verif.C113_includes",
    "Verif.C113_intersects",
    "Verif.C113_item",
    "Verif.C113_intersection",
    "Verif.C113_difference",
    "Verif.C113_complement",
    "Verif.C113_violation"
   ],
   "note": ""
  },
  {
   "property": "C114",
   "status": "proved",
   "theorems": [
    "Verif.C114_accepted",
    "Verif.C114_intersection",
    "Verif.C114_difference",
    "Verif.C114_difference_violation",
    "Verif.C114_complement",
    "Verif.C114_union_ranges",
    "Verif.C114_union",
    "Verif.C114_union_violation",
    "Verif.C114_is_empty",
    "Verif.C114_includes",
    "Verif.C114_intersects",
    "Verif.C114_intersects_violation",
    "Verif.C114_equal_violation",
    "Verif.C114_same"
   ],
   "note": ""
  },
  {
   "property": "C115",
   "status": "proved",
   "theorems": [
    "Verif.C115_same",
    "Verif.C115_same_made",
    "Verif.C115_version",
    "Verif.C115_single",
    "Verif.C115_pipes",
    "Verif.C115_commas",
    "Verif.C115_piece",
    "Verif.C115_tells",
    "Verif.C115_tag",
    "Verif.C115_range",
    "Verif.C115_point",
    "Verif.C115_union",
    "Verif.C115_operator",
    "Verif.C115_specifiers"
   ],
   "note": ""
  },
  {
   "property": "C116",
   "status": "proved",
   "theorems": [
    "Verif.C116_max",
    "Verif.C116_min",
    "Verif.C116_max_order",
    "Verif.C116_sorted",
    "Verif.C116_sorted_order",
    "Verif.C116_consecutive",
    "Verif.C116_latest",
    "Verif.C116_latest_order",
    "Verif.C116_latest_includes",
    "Verif.C116_latest_union",
    "Verif.C116_latest_intersection",
    "Verif.C116_accepted",
    "Verif.C116_set",
    "Verif.C116_set_size"
   ],
   "note": ""
  },
  {
   "property": "C117",
   "status": "proved",
   "theorems": [
    "Verif.C117_caret",
    "Verif.C117_tilde",
    "Verif.C117_tilde_equal",
    "Verif.C117_wildcard",
    "Verif.C117_plain",
    "Verif.C117_post",
    "Verif.C117_back",
    "Verif.C117_unstable",
    "Verif.C117_repeated",
    "Verif.C117_passes",
    "Verif.C117_stays"
   ],
   "note": ""
  },
  {
   "property": "C118",
   "status": "proved",
   "theorems": [
    "Verif.C118_disjoint",
    "Verif.C118_nested",
    "Verif.C118_covered",
    "Verif.C118_uncovered",
    "Verif.C118_tilde_equal",
    "Verif.C118_caret",
    "Verif.C118_tilde"
   ],
   "note": ""
  },
  {
   "property": "C119",
   "status": "proved",
   "theorems": [
    "Verif.C119_strings",
    "Verif.C119_accepts",
    "Verif.C119_converts",
    "Verif.C119_read",
    "Verif.C119_simplified",
    "Verif.C119_folded_all",
    "Verif.C119_folded_any",
    "Verif.C119_folded_front"
   ],
   "note": ""
  },
  {
   "property": "C120",
   "status": "proved",
   "theorems": [
    "Verif.C120_satisfiable",
    "Verif.C120_two",
    "Verif.C120_pairwise",
    "Verif.C120_empty",
    "Verif.C120_violation"
   ],
   "note": ""
  },
  {
   "property": "C121",
   "status": "proved",
   "theorems": [
    "Verif.C121_stored",
    "Verif.C121_fails",
    "Verif.C121_violation",
    "Verif.C121_local"
   ],
   "note": ""
  },
  {
   "property": "C122",
   "status": "proved",
   "theorems": [
    "Verif.C122_order",
    "Verif.C122_single",
    "Verif.C122_formula",
    "Verif.C122_set"
   ],
   "note": ""
  },
  {
   "property": "C123",
   "status": "proved",
   "theorems": [
    "Verif.C123_order",
    "Verif.C123_single",
    "Verif.C123_formula",
    "Verif.C123_set"
   ],
   "note": ""
  },
  {
   "property": "C124",
   "status": "proved",
   "theorems": [
    "Verif.C124_sets",
    "Verif.C124_operations",
    "Verif.C124_equal",
    "Verif.C124_includes",
    "Verif.C124_intersects",
    "Verif.C124_empty"
   ],
   "note": ""
  },
  {
   "property": "C125",
   "status": "proved",
   "theorems": [
    "Verif.C125_edit",
    "Verif.C125_last_phase",
    "Verif.C125_program"
   ],
   "note": ""
  },
  {
   "property": "C126",
   "status": "proved",
   "theorems": [
    "Verif.C126_text"
   ],
   "note": ""
  },
  {
   "property": "C127",
   "status": "proved",
   "theorems": [
    "Verif.C127_pick",
    "Verif.C127_sorted"
   ],
   "note": ""
  },
  {
   "property": "C128",
   "status": "proved",
   "theorems": [
    "Verif.C128_operator",
    "Verif.C128_order",
    "Verif.C128_public",
    "Verif.C128_formula",
    "Verif.C128_set"
   ],
   "note": ""
  },
  {
   "property": "C129",
   "status": "proved",
   "theorems": [
    "Verif.C129_formula",
    "Verif.C129_set",
    "Verif.C129_covers"
   ],
   "note": ""
  },
  {
   "property": "C130",
   "status": "proved",
   "theorems": [
    "Verif.C130_resolve",
    "Verif.C130_fails",
    "Verif.C130_order",
    "Verif.C130_further",
    "Verif.C130_joined"
   ],
   "note": ""
  },
  {
   "property": "C131",
   "status": "proved",
   "theorems": [
    "Verif.C131_lock",
    "Verif.C131_published",
    "Verif.C131_withdrawn",
    "Verif.C131_offers"
   ],
   "note": ""
  },
  {
   "property": "C132",
   "status": "proved",
   "theorems": [
    "Verif.C132_resolve",
    "Verif.C132_fails",
    "Verif.C132_preferred"
   ],
   "note": ""
  },
  {
   "property": "C133",
   "status": "proved",
   "theorems": [
    "Verif.C133_implies",
    "Verif.C133_both",
    "Verif.C133_meet",
    "Verif.C133_sets"
   ],
   "note": ""
  },
  {
   "property": "C134",
   "status": "proved",
   "theorems": [
    "Verif.C134_bounds",
    "Verif.C134_within",
    "Verif.C134_meets",
    "Verif.C134_sets"
   ],
   "note": ""
  },
  {
   "property": "C135",
   "status": "proved",
   "theorems": [
    "Verif.C135_kept",
    "Verif.C135_ends",
    "Verif.C135_apart",
    "Verif.C135_sets"
   ],
   "note": ""
  },
  {
   "property": "C136",
   "status": "proved",
   "theorems": [
    "Verif.C136_gapless",
    "Verif.C136_sets"
   ],
   "note": ""
  },
  {
   "property": "C137",
   "status": "proved",
   "theorems": [
    "Verif.C137_cut"
   ],
   "note": ""
  },
  {
   "property": "C138",
   "status": "proved",
   "theorems": [
    "Verif.C138_sets",
    "Verif.C138_complement"
   ],
   "note": ""
  },
  {
   "property": "C139",
   "status": "proved",
   "theorems": [
    "Verif.C139_accepts",
    "Verif.C139_sets"
   ],
   "note": ""
  },
  {
   "property": "C140",
   "status": "proved",
   "theorems": [
    "Verif.C140_implies",
    "Verif.C140_meets",
    "Verif.C140_sets"
   ],
   "note": ""
  },
  {
   "property": "C141",
   "status": "proved",
   "theorems": [
    "Verif.C141_covers",
    "Verif.C141_sets",
    "Verif.C141_returns"
   ],
   "note": ""
  },
  {
   "property": "C142",
   "status": "proved",
   "theorems": [
    "Verif.C142_opposite",
    "Verif.C142_same",
    "Verif.C142_sets"
   ],
   "note": ""
  },
  {
   "property": "C143",
   "status": "proved",
   "theorems": [
    "Verif.C143_common",
    "Verif.C143_left"
   ],
   "note": ""
  }
 ]
}