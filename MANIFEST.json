{
 "claims": [
  {
   "property": "C01",
   "status": "proved",
   "theorems": [
    "Scim.C01_parse_iff",
    "Scim.C01_print_parse",
    "Scim.C01_parse_print",
    "Scim.C01_parse_iff_regex",
    "Scim.C01_parse_groups"
   ],
   "note": "Also proved equivalent to the regular expression of the source."
  },
  {
   "property": "C02",
   "status": "proved",
   "theorems": [
    "Scim.C02_eq_iff",
    "Scim.C02_refl",
    "Scim.C02_symm",
    "Scim.C02_trans",
    "Scim.C02_ignores_case",
    "Scim.C02_topLevel_iff",
    "Scim.C02_not_transitive"
   ],
   "note": "C02_not_transitive is the counterexample to general transitivity."
  },
  {
   "property": "C03",
   "status": "proved",
   "theorems": [
    "Scim.C03_read_after_write",
    "Scim.C03_read_after_write_names"
   ],
   "note": ""
  },
  {
   "property": "C04",
   "status": "proved",
   "theorems": [
    "Scim.C04_write_frame",
    "Scim.C04_delete_frame"
   ],
   "note": ""
  },
  {
   "property": "C05",
   "status": "proved",
   "theorems": [
    "Scim.C05_write_sub",
    "Scim.C05_write_sub_list"
   ],
   "note": ""
  },
  {
   "property": "C06",
   "status": "proved",
   "theorems": [
    "Scim.C06_extension_new",
    "Scim.C06_extension_existing",
    "Scim.C06_other_spelling_raises",
    "Scim.C06_absent_extension_reads_core"
   ],
   "note": "Holds when the extension URN is new or already stored in the same spelling; C06_other_spelling_raises is the witness that another spelling raises KeyError."
  },
  {
   "property": "C07",
   "status": "proved",
   "theorems": [
    "Scim.C07_delete",
    "Scim.C07_delete_absent",
    "Scim.C07_delete_keys",
    "Scim.C07_stale_key_stays"
   ],
   "note": "C07_stale_key_stays: a stale spelling stays visible in to_dict after overwriting with another spelling and deleting."
  },
  {
   "property": "C08",
   "status": "proved",
   "theorems": [
    "Scim.C08_roundtrip"
   ],
   "note": ""
  },
  {
   "property": "C09",
   "status": "proved",
   "theorems": [
    "Scim.C09_lookup",
    "Scim.C09_spelling"
   ],
   "note": ""
  },
  {
   "property": "C10",
   "status": "proved",
   "theorems": [
    "Scim.C10_eq_terminates",
    "Scim.C10_eq_iff_subset",
    "Scim.C10_eq_dict",
    "Scim.C10_empty_eq",
    "Scim.C10_eq_scalars",
    "Scim.C10_refl",
    "Scim.C10_not_symmetric",
    "Scim.C10_case_duplicate_not_refl",
    "Scim.C10_extension_not_refl",
    "Scim.C10_bad_key_raises",
    "Scim.C10_nan_not_refl"
   ],
   "note": "Witnesses for the cases outside the hypotheses: case duplicates, extension URNs, keys that are not names."
  },
  {
   "property": "C11",
   "status": "proved",
   "theorems": [
    "Scim.C11_read_total",
    "Scim.C11_scalar_sub",
    "Scim.C11_empty_key_raises"
   ],
   "note": "C11_empty_key_raises shows that the hypothesis on empty keys is needed."
  },
  {
   "property": "C12",
   "status": "proved",
   "theorems": [
    "Scim.C12_merge_errors",
    "Scim.C12_merge_hasIssues",
    "Scim.C12_hasIssues_iff"
   ],
   "note": ""
  },
  {
   "property": "C13",
   "status": "proved",
   "theorems": [
    "Scim.C13_canProceed_adds",
    "Scim.C13_canProceed_many"
   ],
   "note": ""
  },
  {
   "property": "C14",
   "status": "proved",
   "theorems": [
    "Scim.C14_merge_blocks",
    "Scim.C14_merge_keeps_blocked",
    "Scim.C14_merge_carries_blocked",
    "Scim.C14_warning_blocks"
   ],
   "note": "The three clauses hold; the expectation that a merged warning does not block is false of the code, witness C14_warning_blocks."
  },
  {
   "property": "C15",
   "status": "proved",
   "theorems": [
    "Scim.C15_report",
    "Scim.C15_report_distinct"
   ],
   "note": ""
  },
  {
   "property": "C16",
   "status": "partial",
   "theorems": [
    "Scim.C16_pop_keeps_others",
    "Scim.C16_pop_sublist",
    "Scim.C16_pop_frame",
    "Scim.C16_pop_removes_partial",
    "Scim.C16_pop_adjacent_fails",
    "Scim.C16_pop_returns_rest"
   ],
   "note": "False of the code when two adjacent issues have the code (witness C16_pop_adjacent_fails); C16_pop_removes_partial proves it otherwise, the frame clauses hold without restriction."
  },
  {
   "property": "C17",
   "status": "proved",
   "theorems": [
    "Scim.C17_get",
    "Scim.C17_get_canProceed",
    "Scim.C17_get_merge_keyError"
   ],
   "note": "C17_get_merge_keyError records that the result of get cannot always be merged."
  },
  {
   "property": "C18",
   "status": "proved",
   "theorems": [
    "Scim.C18_encode_iff_canonical",
    "Scim.C18_binary_iff"
   ],
   "note": ""
  },
  {
   "property": "C19",
   "status": "proved",
   "theorems": [
    "Scim.C19_parse_dichotomy",
    "Scim.C19_dump_dichotomy",
    "Scim.C19_unknown"
   ],
   "note": ""
  },
  {
   "property": "C20",
   "status": "proved",
   "theorems": [
    "Scim.C20_dump_parse",
    "Scim.C20_parse_dump"
   ],
   "note": "isoformat and fromisoformat are parameters; the theorem assumes that they are inverse on the date at hand."
  },
  {
   "property": "C21",
   "status": "proved",
   "theorems": [
    "Scim.C21_integer_accepts",
    "Scim.C21_decimal_accepts",
    "Scim.C21_rejects",
    "Scim.C21_nearest",
    "Scim.C21_exact"
   ],
   "note": ""
  },
  {
   "property": "C22",
   "status": "proved",
   "theorems": [
    "Scim.C22_parse_raises_iff",
    "Scim.C22_dump_raises_iff"
   ],
   "note": ""
  },
  {
   "property": "C23",
   "status": "proved",
   "theorems": [
    "Scim.C23_non_list",
    "Scim.C23_items",
    "Scim.C23_null_item"
   ],
   "note": ""
  },
  {
   "property": "C24",
   "status": "proved",
   "theorems": [
    "Scim.C24_single",
    "Scim.C24_multi",
    "Scim.C24_decides",
    "Scim.Examples.C24_bound_not_enforced"
   ],
   "note": "About attributes as constructed; attributes bound to a schema lose validate_canonical_values, see C24_bound_not_enforced."
  },
  {
   "property": "C25",
   "status": "proved",
   "theorems": [
    "Scim.C25_null"
   ],
   "note": ""
  },
  {
   "property": "C26",
   "status": "proved",
   "theorems": [
    "Scim.C26_single_primary",
    "Scim.C26_total"
   ],
   "note": ""
  },
  {
   "property": "C27",
   "status": "proved",
   "theorems": [
    "Scim.C27_single",
    "Scim.C27_multi",
    "Scim.C27_declared"
   ],
   "note": "A multi-valued item that is no object is reported at its index and yields an empty item."
  },
  {
   "property": "C28",
   "status": "proved",
   "theorems": [
    "Scim.C28_id",
    "Scim.C28_no_bulkId"
   ],
   "note": ""
  },
  {
   "property": "C29",
   "status": "proved",
   "theorems": [
    "Scim.C29_declared",
    "Scim.C29_dump"
   ],
   "note": "For sane schemas (Schema.WF), shown to hold for User, Group, ResourceType and ServiceProviderConfig as declared and to be kept by with_extension."
  },
  {
   "property": "C30",
   "status": "proved",
   "theorems": [
    "Scim.C30_not_object",
    "Scim.C30_dump"
   ],
   "note": ""
  },
  {
   "property": "C31",
   "status": "proved",
   "theorems": [
    "Scim.C31_field",
    "Scim.C31_total",
    "Scim.C31_process"
   ],
   "note": ""
  },
  {
   "property": "C32",
   "status": "proved",
   "theorems": [
    "Scim.C32_full",
    "Scim.C32_short",
    "Scim.C32_short_extension",
    "Scim.C32_undeclared"
   ],
   "note": "Also gives the exact spellings under which nothing is found."
  },
  {
   "property": "C33",
   "status": "proved",
   "theorems": [
    "Scim.C33_repeated",
    "Scim.C33_kept",
    "Scim.C33_added",
    "Scim.Examples.C33_repetition_undetected"
   ],
   "note": "C33_repetition_undetected is the witness for the upper-case URN."
  },
  {
   "property": "C34",
   "status": "proved",
   "theorems": [
    "Scim.C34_total",
    "Scim.C34_user",
    "Scim.C34_group",
    "Scim.Examples.C34_certificate_raises",
    "Scim.Examples.C34_schemas_number_raises",
    "Scim.Examples.C34_urn_key_raises",
    "Scim.Examples.C34_empty_key_raises"
   ],
   "note": "For attributes whose processors are those of the resource schemas; instances C34_user and C34_group; four witnesses show that the hypotheses are needed."
  },
  {
   "property": "C35",
   "status": "proved",
   "theorems": [
    "Scim.C35_resource_type"
   ],
   "note": ""
  },
  {
   "property": "C36",
   "status": "proved",
   "theorems": [
    "Scim.C36_missing_iff",
    "Scim.C36_simple",
    "Scim.C36_missing_requested"
   ],
   "note": "Also the variant with requested attributes."
  },
  {
   "property": "C37",
   "status": "proved",
   "theorems": [
    "Scim.C37_never_returned",
    "Scim.C37_default"
   ],
   "note": ""
  },
  {
   "property": "C38",
   "status": "proved",
   "theorems": [
    "Scim.C38_include"
   ],
   "note": ""
  },
  {
   "property": "C39",
   "status": "proved",
   "theorems": [
    "Scim.C39_exclude"
   ],
   "note": ""
  },
  {
   "property": "C40",
   "status": "proved",
   "theorems": [
    "Scim.C40_requests",
    "Scim.C40_responses"
   ],
   "note": ""
  },
  {
   "property": "C41",
   "status": "proved",
   "theorems": [
    "Scim.C41_checker_iff",
    "Scim.C41_checker",
    "Scim.C41_issues",
    "Scim.C41_bad_reported"
   ],
   "note": ""
  },
  {
   "property": "C42",
   "status": "proved",
   "theorems": [
    "Scim.C42_locations"
   ],
   "note": "Locations do not carry the URN of an extension."
  },
  {
   "property": "C43",
   "status": "proved",
   "theorems": [
    "Scim.C43_decided",
    "Scim.C43_bool"
   ],
   "note": ""
  },
  {
   "property": "C44",
   "status": "proved",
   "theorems": [
    "Scim.C44_strict_nonstrict",
    "Scim.Examples.Operator.C44_nonstrict_may_raise"
   ],
   "note": "C44_nonstrict_may_raise shows that the proviso on exceptions is needed."
  },
  {
   "property": "C45",
   "status": "proved",
   "theorems": [
    "Scim.C45_permutation"
   ],
   "note": ""
  },
  {
   "property": "C46",
   "status": "proved",
   "theorems": [
    "Scim.C46_and",
    "Scim.C46_or",
    "Scim.C46_not",
    "Scim.C46_raises"
   ],
   "note": "C46_raises: And and Or raise only what an operand raises."
  },
  {
   "property": "C47",
   "status": "proved",
   "theorems": [
    "Scim.C47_strings",
    "Scim.C47_case_ignored"
   ],
   "note": "Lower-casing is a parameter of the model."
  },
  {
   "property": "C48",
   "status": "proved",
   "theorems": [
    "Scim.C48_eq_ne",
    "Scim.C48_eq_ne_dates",
    "Scim.C48_neither"
   ],
   "note": "C48_neither is the converse for the excluded case."
  },
  {
   "property": "C49",
   "status": "proved",
   "theorems": [
    "Scim.C49_present",
    "Scim.C49_never_missing",
    "Scim.Examples.Operator.C49_complex_raises"
   ],
   "note": "C49_complex_raises: on complex multi-valued attributes pr raises AttributeError."
  },
  {
   "property": "C50",
   "status": "proved",
   "theorems": [
    "Scim.C50_simple",
    "Scim.C50_complex",
    "Scim.Examples.Operator.C50_null_item"
   ],
   "note": "C50_null_item shows why items have to be values; dateTime lists raise."
  },
  {
   "property": "C51",
   "status": "proved",
   "theorems": [
    "Scim.C51_undeclared",
    "Scim.C51_not_complex",
    "Scim.C51_false"
   ],
   "note": ""
  },
  {
   "property": "C52",
   "status": "proved",
   "theorems": [
    "Scim.C52_invalid_iff_issues",
    "Scim.C52_issues_block"
   ],
   "note": ""
  },
  {
   "property": "C53",
   "status": "proved",
   "theorems": [
    "Scim.C53_only_overflow",
    "Scim.Examples.Filter.C53_inf_raises"
   ],
   "note": "C53_inf_raises is a text that raises. The model of the parser has fuel; running out of it is ruled out by the theorem too."
  },
  {
   "property": "C54",
   "status": "proved",
   "theorems": [
    "Scim.C54_print_parse",
    "Scim.C54_grammar"
   ],
   "note": "Operators on sub-attributes print with dotted names; C54_grammar covers every text of a separate grammar."
  },
  {
   "property": "C55",
   "status": "proved",
   "theorems": [
    "Scim.C55_quoted_verbatim"
   ],
   "note": "Also for single quotes."
  },
  {
   "property": "C56",
   "status": "proved",
   "theorems": [
    "Scim.C56_precedence",
    "Scim.C56_precedence_lists"
   ],
   "note": "Operands are attribute expressions and bracketed filters, possibly negated."
  },
  {
   "property": "C57",
   "status": "proved",
   "theorems": [
    "Scim.C57_operator_case",
    "Scim.C57_present_case"
   ],
   "note": ""
  },
  {
   "property": "C58",
   "status": "proved",
   "theorems": [
    "Scim.C58_unbalanced"
   ],
   "note": "For texts on which the parser returns; C53 says when it raises instead. The converse is included."
  },
  {
   "property": "C59",
   "status": "partial",
   "theorems": [
    "Scim.C59_no_mix_partial",
    "Scim.Examples.Filter.C59_false"
   ],
   "note": "False of the code (witness C59_false: placeholder collision). C59_no_mix_partial proves it when groups and complex-attribute filters are not operands of the same expression."
  },
  {
   "property": "C60",
   "status": "proved",
   "theorems": [
    "Scim.C60_value",
    "Scim.C60_reject"
   ],
   "note": "A lone quote is read as the empty string, infinite numbers raise OverflowError."
  },
  {
   "property": "C61",
   "status": "proved",
   "theorems": [
    "Scim.C61_plain"
   ],
   "note": ""
  },
  {
   "property": "C62",
   "status": "proved",
   "theorems": [
    "Scim.C62_consistent",
    "Scim.C62_invalid_iff_issues",
    "Scim.C62_exceptions",
    "Scim.Examples.Path.C62_raises"
   ],
   "note": "C62_exceptions lists the exceptions that can escape; C62_raises is a text that raises AttributeError."
  },
  {
   "property": "C63",
   "status": "proved",
   "theorems": [
    "Scim.C63_malformed",
    "Scim.C63_only"
   ],
   "note": "C63_only is the converse."
  },
  {
   "property": "C64",
   "status": "proved",
   "theorems": [
    "Scim.C64_permutation",
    "Scim.C64_sorted",
    "Scim.C64_unique",
    "Scim.C64_total",
    "Scim.C64_key",
    "Scim.Examples.Sorter.C64_mixed_case"
   ],
   "note": "Keys that are nan or lists, and schemas that disagree about case sensitivity (C64_mixed_case), are excluded; C64_unique shows that the result does not depend on the algorithm."
  },
  {
   "property": "C65",
   "status": "proved",
   "theorems": [
    "Scim.C65_key",
    "Scim.C65_missing_last",
    "Scim.C65_without_value"
   ],
   "note": "C65_key says which resources have no usable value."
  },
  {
   "property": "C66",
   "status": "proved",
   "theorems": [
    "Scim.C66_idempotent",
    "Scim.C66_result_accepted",
    "Scim.C66_equal_iff",
    "Scim.C66_in_order_accepted",
    "Scim.C66_accepted_iff"
   ],
   "note": "For one schema; C66_accepted_iff assumes that no resource equals another one."
  },
  {
   "property": "C67",
   "status": "partial",
   "theorems": [
    "Scim.C67_partial",
    "Scim.C67_deep",
    "Scim.C67_reported",
    "Scim.C67_user",
    "Scim.C67_group",
    "Scim.Examples.PatchOp.C67_parent_read_only"
   ],
   "note": "False of the code for writable sub-attributes of read-only attributes (witness C67_parent_read_only); C67_deep proves it for schemas whose read-only attributes have read-only sub-attributes only, C67_user and C67_group are instances; C67_partial is what holds without that."
  },
  {
   "property": "C68",
   "status": "proved",
   "theorems": [
    "Scim.C68_accepted",
    "Scim.C68_reported"
   ],
   "note": "C68_accepted and, for requests whose operations are looked at, C68_reported with the place of the issue."
  },
  {
   "property": "C69",
   "status": "partial",
   "theorems": [
    "Scim.C69_partial",
    "Scim.C69_accepted_partial",
    "Scim.Examples.PatchOp.C69_complex"
   ],
   "note": "False of the code for required complex attributes (witness C69_complex); C69_partial proves the exact condition for the others and for sub-attributes."
  },
  {
   "property": "C70",
   "status": "proved",
   "theorems": [
    "Scim.C70_put",
    "Scim.C70_put_accepted",
    "Scim.C70_post",
    "Scim.C70_post_accepted",
    "Scim.C70_response",
    "Scim.C70_get_response",
    "Scim.C70_post_response",
    "Scim.C70_patch_response",
    "Scim.C70_error",
    "Scim.C70_search"
   ],
   "note": "For POST and PUT requests and single-resource responses (GET, POST, PUT, PATCH 200, errors); list responses: dumpList_spec."
  },
  {
   "property": "C71",
   "status": "proved",
   "theorems": [
    "Scim.C71_read_only",
    "Scim.C71_kept",
    "Scim.C71_sub_read_only",
    "Scim.C71_sub_kept",
    "Scim.C71_ext_sub_read_only",
    "Scim.C71_ext_sub_kept"
   ],
   "note": "C71_read_only for attributes of the schema and of extensions, C71_sub_read_only and C71_ext_sub_read_only for sub-attributes, C71_kept, C71_sub_kept and C71_ext_sub_kept for what stays. schemas is itself declared read-only and so removed. The kept theorems exclude attributes that share their name with a read-only attribute of an extension, as deletion falls back to the schema."
  },
  {
   "property": "C72",
   "status": "proved",
   "theorems": [
    "Scim.C72_missing_iff",
    "Scim.C72_reported",
    "Scim.C72_server_issued"
   ],
   "note": "C72_missing_iff is an equivalence for all locations; C72_reported speaks about the request body itself."
  },
  {
   "property": "C73",
   "status": "proved",
   "theorems": [
    "Scim.C73_number",
    "Scim.C73_pages",
    "Scim.C73_accepted"
   ],
   "note": "C73_number and C73_pages give the codes, C73_accepted the dictionary that is sent. Booleans count as integers, as in Python; a startIndex of 0 is not compared; itemsPerPage is compared only when Resources are present."
  },
  {
   "property": "C74",
   "status": "proved",
   "theorems": [
    "Scim.C74_missing",
    "Scim.C74_accepted_iff",
    "Scim.C74_status",
    "Scim.C74_range"
   ],
   "note": "C74_accepted_iff is an equivalence; the permitted range is 200-599."
  },
  {
   "property": "C75",
   "status": "proved",
   "theorems": [
    "Scim.C75_post_header",
    "Scim.C75_post_status",
    "Scim.C75_get",
    "Scim.C75_patch",
    "Scim.C75_status",
    "Scim.C75_header",
    "Scim.C75_accepted",
    "Scim.C75_mismatch"
   ],
   "note": "For headers that are texts; for sane schemas with the standard meta attribute."
  },
  {
   "property": "C76",
   "status": "proved",
   "theorems": [
    "Scim.C76_both",
    "Scim.C76_none",
    "Scim.C76_checker",
    "Scim.C76_bad_names",
    "Scim.C76_query"
   ],
   "note": ""
  },
  {
   "property": "C77",
   "status": "proved",
   "theorems": [
    "Scim.C77_issues",
    "Scim.C77_accepted",
    "Scim.C77_raises"
   ],
   "note": "C77_raises is the limit of the property: one resource for which matching raises hides all others."
  },
  {
   "property": "C78",
   "status": "proved",
   "theorems": [
    "Scim.C78_delete",
    "Scim.C78_patch"
   ],
   "note": ""
  },
  {
   "property": "C79",
   "status": "proved",
   "theorems": [
    "Scim.C79_accepted",
    "Scim.C79_bad_number"
   ],
   "note": ""
  },
  {
   "property": "C80",
   "status": "proved",
   "theorems": [
    "Scim.C80_request",
    "Scim.C80_response"
   ],
   "note": "For responses the allowed number of failures is not negative; an empty list of operations is refused earlier."
  },
  {
   "property": "C81",
   "status": "proved",
   "theorems": [
    "Scim.C81_filter_path",
    "Scim.C81_filter_path_sub",
    "Scim.Examples.Path.C81_placeholder"
   ],
   "note": "C81_placeholder shows that the restriction on '|' is needed."
  },
  {
   "property": "C82",
   "status": "proved",
   "theorems": [
    "Scim.C82_locations"
   ],
   "note": "For sane schemas (Schema.WF)."
  },
  {
   "property": "C83",
   "status": "proved",
   "theorems": [
    "Scim.C83_shape"
   ],
   "note": "The words are compared exactly: Add is taken for remove, as in the code."
  },
  {
   "property": "C84",
   "status": "proved",
   "theorems": [
    "Scim.C84_kept"
   ],
   "note": ""
  },
  {
   "property": "C85",
   "status": "proved",
   "theorems": [
    "Scim.C85_no_path",
    "Scim.C85_complex"
   ],
   "note": ""
  },
  {
   "property": "C86",
   "status": "proved",
   "theorems": [
    "Scim.C86_codes",
    "Scim.C86_dump_codes"
   ],
   "note": ""
  },
  {
   "property": "C87",
   "status": "proved",
   "theorems": [
    "Scim.C87_accepted"
   ],
   "note": ""
  },
  {
   "property": "C88",
   "status": "proved",
   "theorems": [
    "Scim.C88_accepted",
    "Scim.Examples.BulkResponses.C88_dropped"
   ],
   "note": "C88_dropped is the witness that a success with an unexpected status loses its resource."
  },
  {
   "property": "C89",
   "status": "proved",
   "theorems": [
    "Scim.C89_representation",
    "Scim.C89_raises",
    "Scim.C89_schema_itself",
    "Scim.C89_decimal"
   ],
   "note": "C89_schema_itself: the Schema resource itself has no representation; C89_decimal: decimal attributes are reported."
  },
  {
   "property": "C90",
   "status": "proved",
   "theorems": [
    "Scim.C90_consistent",
    "Scim.Examples.SchemaDocs.C90_caseExact"
   ],
   "note": "C90_caseExact: a string attribute without caseExact is not reported, the attempt raises TypeError."
  },
  {
   "property": "C91",
   "status": "proved",
   "theorems": [
    "Scim.C91_read_write",
    "Scim.C91_write_read",
    "Scim.C91_user",
    "Scim.C91_group",
    "Scim.C91_service"
   ],
   "note": "For dates that survive isoformat and fromisoformat (DatesSurvive) and schemas whose extensions do not reuse names (NoShadow); an example shows that the latter is needed."
  },
  {
   "property": "C92",
   "status": "proved",
   "theorems": [
    "Scim.C92_presence",
    "Scim.C92_accepted"
   ],
   "note": "The order is compared with the equality of resources, which must not raise."
  },
  {
   "property": "C93",
   "status": "proved",
   "theorems": [
    "Scim.C93_withheld",
    "Scim.C93_items",
    "Scim.C93_accepted",
    "Scim.C93_user",
    "Scim.C93_group",
    "Scim.Examples.PatchRequests.C93_raises"
   ],
   "note": "C93_raises: TypeError when the value for a multi-valued complex attribute is no list, or the value of an operation without path no object; AttributeError for a malformed path."
  },
  {
   "property": "C94",
   "status": "proved",
   "theorems": [
    "Scim.C94_dropped",
    "Scim.C94_filter",
    "Scim.C94_accepted"
   ],
   "note": ""
  },
  {
   "property": "C95",
   "status": "proved",
   "theorems": [
    "Scim.C95_accepted",
    "Scim.C95_together",
    "Scim.C95_descending",
    "Scim.C95_exclude_ignored"
   ],
   "note": "C95_descending and C95_exclude_ignored show that sortOrder and excludeAttributes have no effect on the sorter and the presence checker."
  },
  {
   "property": "C96",
   "status": "proved",
   "theorems": [
    "Scim.C96_put",
    "Scim.C96_post",
    "Scim.C96_user",
    "Scim.C96_group",
    "Scim.C96_get",
    "Scim.C96_list",
    "Scim.C96_search",
    "Scim.Examples.RequestTotality.C96_filter_raises",
    "Scim.Examples.RequestTotality.C96_names_raise",
    "Scim.Examples.RequestTotality.C96_number_raises",
    "Scim.Examples.RequestTotality.C96_schemas_raise"
   ],
   "note": "C96_filter_raises, C96_names_raise, C96_number_raises and C96_schemas_raise show that the hypotheses are needed."
  },
  {
   "property": "C97",
   "status": "proved",
   "theorems": [
    "Scim.C97_dump",
    "Scim.C97_resource",
    "Scim.C97_responses",
    "Scim.C97_user",
    "Scim.C97_group",
    "Scim.C97_config",
    "Scim.C97_error",
    "Scim.Examples.ResponseTotality.C97_headers_raise",
    "Scim.Examples.ResponseTotality.C97_schemas_raise"
   ],
   "note": "C97_headers_raise and C97_schemas_raise show that the hypotheses are needed."
  },
  {
   "property": "C98",
   "status": "proved",
   "theorems": [
    "Scim.C98_list",
    "Scim.C98_users_groups",
    "Scim.Examples.ListTotality.C98_urn_raises",
    "Scim.Examples.ListTotality.C98_schemas_raise"
   ],
   "note": "C98_urn_raises and C98_schemas_raise show that the hypotheses about several schemas are needed."
  },
  {
   "property": "C99",
   "status": "proved",
   "theorems": [
    "Scim.C99_formed",
    "Scim.C99_path"
   ],
   "note": ""
  },
  {
   "property": "C100",
   "status": "proved",
   "theorems": [
    "Scim.C100_eq",
    "Scim.C100_equivalence",
    "Scim.C100_same_results",
    "Scim.C100_texts",
    "Scim.C100_path_eq",
    "Scim.Examples.FilterEq.C100_case",
    "Scim.Examples.FilterEq.C100_by_hand",
    "Scim.Examples.FilterEq.C100_nan",
    "Scim.Examples.FilterEq.C100_path_case"
   ],
   "note": "C100_case, C100_by_hand, C100_nan and C100_path_case show the limits: names are compared case-sensitively, hand-made dotted names by their last part only, nan differs from itself."
  },
  {
   "property": "C101",
   "status": "proved",
   "theorems": [
    "Scim.C101_created",
    "Scim.C101_refused",
    "Scim.C101_limits",
    "Scim.Examples.Config.C101_unsupported"
   ],
   "note": "C101_unsupported: without the limit, acceptable bulk requests raise TypeError; negative limits pass."
  },
  {
   "property": "C102",
   "status": "proved",
   "theorems": [
    "Scim.C102_made",
    "Scim.C102_names",
    "Scim.C102_shown",
    "Scim.C102_code",
    "Scim.C102_equal",
    "Scim.Examples.Messages.C102_operator_type"
   ],
   "note": "C102_operator_type: the restriction of the kinds of operators to the two that occur is needed."
  },
  {
   "property": "C103",
   "status": "proved",
   "theorems": [
    "Scim.C103_document",
    "Scim.C103_request",
    "Scim.C103_user",
    "Scim.C103_group",
    "Scim.C103_user_request",
    "Scim.C103_group_request",
    "Scim.Examples.PatchTotality.C103_raises",
    "Scim.Examples.PatchTotality.C103_endpoint_raises"
   ],
   "note": "C103_raises and C103_endpoint_raises show what raises outside of the hypotheses: among others, documents with an unknown path raise instead of being reported."
  },
  {
   "property": "C104",
   "status": "proved",
   "theorems": [
    "Scim.C104_request",
    "Scim.C104_unlimited",
    "Scim.C104_no_list",
    "Scim.C104_sound",
    "Scim.C104_user_data",
    "Scim.C104_group_data",
    "Scim.Examples.BulkTotality.C104_raises"
   ],
   "note": "An equivalence. C104_raises shows what raises: among others, methods in small letters (which the schema accepts) raise KeyError, and so do operations without method."
  },
  {
   "property": "C105",
   "status": "proved",
   "theorems": [
    "Scim.C105_response",
    "Scim.C105_no_list",
    "Scim.C105_no_object",
    "Scim.C105_sound",
    "Scim.C105_served",
    "Scim.Examples.BulkResponseTotality.C105_raises"
   ],
   "note": "An equivalence. C105_raises shows what raises: among others, methods in small letters with a location raise KeyError, and a successful deletion with a location and a response raises TypeError."
  },
  {
   "property": "C106",
   "status": "proved",
   "theorems": [
    "Scim.C106_unrelated",
    "Scim.C106_history",
    "Scim.C106_kinds",
    "Scim.C106_new",
    "Scim.C106_add",
    "Scim.C106_merge",
    "Scim.C106_merge_argument",
    "Scim.C106_get",
    "Scim.C106_pop",
    "Scim.C106_view",
    "Scim.C106_view_blind"
   ],
   "note": "The model keeps lists and sets in a store that dictionaries refer to, so sharing, in-place changes and the state after an exception are visible. The theorems justify treating collections as values in the rest of the model."
  },
  {
   "property": "C107",
   "status": "proved",
   "theorems": [
    "Scim.C107_decides",
    "Scim.C107_written",
    "Scim.C107_list",
    "Scim.C107_reported",
    "Scim.C107_users_groups",
    "Scim.Examples.FilterTypes.C107_prefix_raises",
    "Scim.Examples.FilterTypes.C107_presence_raises",
    "Scim.Examples.FilterTypes.C107_date_raises",
    "Scim.Examples.FilterTypes.C107_number_raises",
    "Scim.Examples.FilterTypes.C107_hidden"
   ],
   "note": "C107_hidden is the witness that the check of the other resources is lost when the filter raises for one; the other witnesses show filters that raise."
  },
  {
   "property": "C108",
   "status": "proved",
   "theorems": [
    "Scim.C108_untouched",
    "Scim.C108_reading",
    "Scim.C108_new",
    "Scim.C108_get",
    "Scim.C108_set",
    "Scim.C108_del",
    "Scim.C108_toDict",
    "Scim.C108_separate",
    "Scim.C108_history",
    "Scim.Examples.ContainerHeap.C108_list_handed_over",
    "Scim.Examples.ContainerHeap.C108_live",
    "Scim.Examples.ContainerHeap.C108_same",
    "Scim.Examples.ContainerHeap.C108_inner_list"
   ],
   "note": "The model keeps lists, dictionaries and containers in a memory of cells, so sharing, changes in place and the state after an exception are visible. C108_list_handed_over, C108_live, C108_same and C108_inner_list are the witnesses for the exceptions. Calls nest to a depth that is a parameter; the theorems hold from a stated depth on, C108_untouched and C108_reading for each depth. The theorems justify treating containers as values in the rest of the model."
  },
  {
   "property": "C109",
   "status": "proved",
   "theorems": [
    "Scim.C109_declared",
    "Scim.C109_spelling",
    "Scim.C109_entries",
    "Scim.C109_order",
    "Scim.C109_undeclared",
    "Scim.C109_apart",
    "Scim.C109_requests",
    "Scim.C109_responses",
    "Scim.C109_users",
    "Scim.Examples.Declared.C109_order_duplicates",
    "Scim.Examples.Declared.C109_empty_name",
    "Scim.Examples.Declared.C109_empty_response"
   ],
   "note": "Complex attributes must have no processors that see the raw value before the sub-attributes are processed, and simple ones a declared type: user_direct and group_direct show it for users and groups. C109_order_duplicates, C109_empty_name and C109_empty_response are the witnesses for the conditions: duplicates up to letter case, an empty name, and the empty body of a creation's response (which may be left out, whereas a body with only an undeclared attribute may not)."
  },
  {
   "property": "C110",
   "status": "proved",
   "theorems": [
    "Scim.C110_in_place",
    "Scim.C110_in_place_resource",
    "Scim.C110_frame",
    "Scim.C110_resources",
    "Scim.C110_list_after",
    "Scim.C110_restored",
    "Scim.C110_once",
    "Scim.C110_config"
   ],
   "note": "C110_in_place and C110_in_place_resource tie the state of the dictionary to the results of the validators. C110_once and C110_config are the parts a user stumbles over."
  },
  {
   "property": "C111",
   "status": "proved",
   "theorems": [
    "Scim.C111_report",
    "Scim.C111_plain",
    "Scim.C111_errors",
    "Scim.C111_operations",
    "Scim.C111_pop",
    "Scim.C111_reach",
    "Scim.C111_message_code",
    "Scim.Examples.IssueReport.C111_name_raises"
   ],
   "note": "C111_name_raises shows that the condition on names is needed."
  },
  {
   "property": "C112",
   "status": "proved",
   "theorems": [
    "Scim.C112_query",
    "Scim.C112_post",
    "Scim.C112_put",
    "Scim.C112_assets"
   ],
   "note": "Ordinary bodies as in C34 and C96: no empty key, objects under the URNs, texts in schemas, ASCII for binary attributes (C34 and C96 show what else raises). A query parameter that is the empty text is not covered."
  },
  {
   "property": "C113",
   "status": "proved",
   "theorems": [
    "Scim.C113_resource",
    "Scim.C113_read_change",
    "Scim.C113_create",
    "Scim.C113_assets"
   ],
   "note": "Ordinary bodies as in C97."
  },
  {
   "property": "C114",
   "status": "proved",
   "theorems": [
    "Scim.C114_accepted",
    "Scim.C114_predefined"
   ],
   "note": "Ordinary bodies as in C97."
  },
  {
   "property": "C115",
   "status": "proved",
   "theorems": [
    "Scim.C115_list",
    "Scim.C115_filtered",
    "Scim.C115_sorted",
    "Scim.C115_users_groups"
   ],
   "note": "Ordinary bodies as in C98. Lists of users, groups and both are instances."
  },
  {
   "property": "C116",
   "status": "proved",
   "theorems": [
    "Scim.C116_search",
    "Scim.C116_list"
   ],
   "note": "Ordinary bodies as in C96; query strings as in C112."
  },
  {
   "property": "C117",
   "status": "proved",
   "theorems": [
    "Scim.C117_document",
    "Scim.C117_user",
    "Scim.C117_group"
   ],
   "note": "Documents that can be looked at, as in C103."
  },
  {
   "property": "C118",
   "status": "proved",
   "theorems": [
    "Scim.C118_request",
    "Scim.C118_raises",
    "Scim.C118_user",
    "Scim.C118_group"
   ],
   "note": "Bodies that can be looked at, as in C103."
  },
  {
   "property": "C119",
   "status": "proved",
   "theorems": [
    "Scim.C119_each",
    "Scim.C119_among"
   ],
   "note": "Bodies that can be looked at, as in C103."
  }
 ]
}