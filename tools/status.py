STATUS = {
 "C01": ("proved", "Also proved equivalent to the regular expression of the source."),
 "C02": ("proved", "C02_not_transitive is the counterexample to general transitivity."),
 "C03": ("proved", ""),
 "C04": ("proved", ""),
 "C05": ("proved", ""),
 "C06": ("proved", "Holds when the extension URN is new or already stored in the same spelling; C06_other_spelling_raises is the witness that another spelling raises KeyError."),
 "C07": ("proved", "C07_stale_key_stays: a stale spelling stays visible in to_dict after overwriting with another spelling and deleting."),
 "C08": ("proved", ""),
 "C09": ("proved", ""),
 "C10": ("proved", "Witnesses for the cases outside the hypotheses: case duplicates, extension URNs, keys that are not names."),
 "C11": ("proved", "C11_empty_key_raises shows that the hypothesis on empty keys is needed."),
 "C12": ("proved", ""),
 "C13": ("proved", ""),
 "C14": ("proved", "The three clauses hold; the expectation that a merged warning does not block is false of the code, witness C14_warning_blocks."),
 "C15": ("proved", ""),
 "C16": ("partial", "False of the code when two adjacent issues have the code (witness C16_pop_adjacent_fails); C16_pop_removes_partial proves it otherwise, the frame clauses hold without restriction."),
 "C17": ("proved", "C17_get_merge_keyError records that the result of get cannot always be merged."),
 "C18": ("proved", ""),
 "C19": ("proved", ""),
 "C20": ("proved", "isoformat and fromisoformat are parameters; the theorem assumes that they are inverse on the date at hand."),
 "C21": ("proved", ""),
 "C22": ("proved", ""),
 "C23": ("proved", ""),
 "C24": ("proved", "About attributes as constructed; attributes bound to a schema lose validate_canonical_values, see C24_bound_not_enforced."),
 "C25": ("proved", ""),
 "C26": ("proved", ""),
 "C27": ("proved", "A multi-valued item that is no object is reported at its index and yields an empty item."),
 "C28": ("proved", ""),
 "C29": ("proved", "For sane schemas (Schema.WF), shown to hold for User, Group, ResourceType and ServiceProviderConfig as declared and to be kept by with_extension."),
 "C30": ("proved", ""),
 "C31": ("proved", ""),
 "C32": ("proved", "Also gives the exact spellings under which nothing is found."),
 "C33": ("proved", "C33_repetition_undetected is the witness for the upper-case URN."),
 "C34": ("proved", "For attributes whose processors are those of the resource schemas; instances C34_user and C34_group; four witnesses show that the hypotheses are needed."),
 "C35": ("proved", ""),
 "C36": ("proved", "Also the variant with requested attributes."),
 "C37": ("proved", ""),
 "C38": ("proved", ""),
 "C39": ("proved", ""),
 "C40": ("proved", ""),
 "C41": ("proved", ""),
 "C42": ("proved", "Locations do not carry the URN of an extension."),
 "C43": ("proved", ""),
 "C44": ("proved", "C44_nonstrict_may_raise shows that the proviso on exceptions is needed."),
 "C45": ("proved", ""),
 "C46": ("proved", "C46_raises: And and Or raise only what an operand raises."),
 "C47": ("proved", "Lower-casing is a parameter of the model."),
 "C48": ("proved", "C48_neither is the converse for the excluded case."),
 "C49": ("proved", "C49_complex_raises: on complex multi-valued attributes pr raises AttributeError."),
 "C50": ("proved", "C50_null_item shows why items have to be values; dateTime lists raise."),
 "C51": ("proved", ""),
 "C52": ("proved", ""),
 "C53": ("proved", "C53_inf_raises is a text that raises. The model of the parser has fuel; running out of it is ruled out by the theorem too."),
 "C54": ("proved", "Operators on sub-attributes print with dotted names; C54_grammar covers every text of a separate grammar."),
 "C55": ("proved", "Also for single quotes."),
 "C56": ("proved", "Operands are attribute expressions and bracketed filters, possibly negated."),
 "C57": ("proved", ""),
 "C58": ("proved", "For texts on which the parser returns; C53 says when it raises instead. The converse is included."),
 "C59": ("partial", "False of the code (witness C59_false: placeholder collision). C59_no_mix_partial proves it when groups and complex-attribute filters are not operands of the same expression."),
 "C60": ("proved", "A lone quote is read as the empty string, infinite numbers raise OverflowError."),
 "C61": ("proved", ""),
 "C62": ("proved", "C62_exceptions lists the exceptions that can escape; C62_raises is a text that raises AttributeError."),
 "C63": ("proved", "C63_only is the converse."),
 "C64": ("proved", "Keys that are nan or lists, and schemas that disagree about case sensitivity (C64_mixed_case), are excluded; C64_unique shows that the result does not depend on the algorithm."),
 "C65": ("proved", "C65_key says which resources have no usable value."),
 "C66": ("proved", "For one schema; C66_accepted_iff assumes that no resource equals another one."),
 "C67": ("partial", "False of the code for writable sub-attributes of read-only attributes (witness C67_parent_read_only); C67_deep proves it for schemas whose read-only attributes have read-only sub-attributes only, C67_user and C67_group are instances; C67_partial is what holds without that."),
 "C68": ("proved", "C68_accepted and, for requests whose operations are looked at, C68_reported with the place of the issue."),
 "C69": ("partial", "False of the code for required complex attributes (witness C69_complex); C69_partial proves the exact condition for the others and for sub-attributes."),
 "C70": ("proved", "For POST and PUT requests and single-resource responses (GET, POST, PUT, PATCH 200, errors); list responses: dumpList_spec."),
 "C71": ("proved", "C71_read_only for attributes of the schema and of extensions, C71_sub_read_only and C71_ext_sub_read_only for sub-attributes, C71_kept, C71_sub_kept and C71_ext_sub_kept for what stays. schemas is itself declared read-only and so removed. The kept theorems exclude attributes that share their name with a read-only attribute of an extension, as deletion falls back to the schema."),
 "C72": ("proved", "C72_missing_iff is an equivalence for all locations; C72_reported speaks about the request body itself."),
 "C73": ("proved", "C73_number and C73_pages give the codes, C73_accepted the dictionary that is sent. Booleans count as integers, as in Python; a startIndex of 0 is not compared; itemsPerPage is compared only when Resources are present."),
 "C74": ("proved", "C74_accepted_iff is an equivalence; the permitted range is 200-599."),
 "C75": ("proved", "For headers that are texts; for sane schemas with the standard meta attribute."),
 "C76": ("proved", ""),
 "C77": ("proved", "C77_raises is the limit of the property: one resource for which matching raises hides all others."),
 "C78": ("proved", ""),
 "C79": ("proved", ""),
 "C81": ("proved", "C81_placeholder shows that the restriction on '|' is needed."),
 "C82": ("proved", "For sane schemas (Schema.WF)."),
 "C83": ("proved", "The words are compared exactly: Add is taken for remove, as in the code."),
 "C84": ("proved", ""),
 "C85": ("proved", ""),
 "C86": ("proved", ""),
 "C80": ("proved", "For responses the allowed number of failures is not negative; an empty list of operations is refused earlier."),
 "C87": ("proved", ""),
 "C89": ("proved", "C89_schema_itself: the Schema resource itself has no representation; C89_decimal: decimal attributes are reported."),
 "C90": ("proved", "C90_caseExact: a string attribute without caseExact is not reported, the attempt raises TypeError."),
 "C91": ("proved", "For dates that survive isoformat and fromisoformat (DatesSurvive) and schemas whose extensions do not reuse names (NoShadow); an example shows that the latter is needed."),
 "C92": ("proved", "The order is compared with the equality of resources, which must not raise."),
 "C93": ("proved", "C93_raises: TypeError when the value for a multi-valued complex attribute is no list, or the value of an operation without path no object; AttributeError for a malformed path."),
 "C94": ("proved", ""),
 "C95": ("proved", "C95_descending and C95_exclude_ignored show that sortOrder and excludeAttributes have no effect on the sorter and the presence checker."),
 "C96": ("proved", "C96_filter_raises, C96_names_raise, C96_number_raises and C96_schemas_raise show that the hypotheses are needed."),
 "C97": ("proved", "C97_headers_raise and C97_schemas_raise show that the hypotheses are needed."),
 "C98": ("proved", "C98_urn_raises and C98_schemas_raise show that the hypotheses about several schemas are needed."),
 "C99": ("proved", ""),
 "C100": ("proved", "C100_case, C100_by_hand, C100_nan and C100_path_case show the limits: names are compared case-sensitively, hand-made dotted names by their last part only, nan differs from itself."),
 "C101": ("proved", "C101_unsupported: without the limit, acceptable bulk requests raise TypeError; negative limits pass."),
 "C102": ("proved", "C102_operator_type: the restriction of the kinds of operators to the two that occur is needed."),
 "C103": ("proved", "C103_raises and C103_endpoint_raises show what raises outside of the hypotheses: among others, documents with an unknown path raise instead of being reported."),
 "C104": ("proved", "An equivalence. C104_raises shows what raises: among others, methods in small letters (which the schema accepts) raise KeyError, and so do operations without method."),
 "C105": ("proved", "An equivalence. C105_raises shows what raises: among others, methods in small letters with a location raise KeyError, and a successful deletion with a location and a response raises TypeError."),
 "C106": ("proved", "The model keeps lists and sets in a store that dictionaries refer to, so sharing, in-place changes and the state after an exception are visible. The theorems justify treating collections as values in the rest of the model."),
 "C107": ("proved", "C107_hidden is the witness that the check of the other resources is lost when the filter raises for one; the other witnesses show filters that raise."),
 "C108": ("proved", "The model keeps lists, dictionaries and containers in a memory of cells, so sharing, changes in place and the state after an exception are visible. C108_list_handed_over, C108_live, C108_same and C108_inner_list are the witnesses for the exceptions. Calls nest to a depth that is a parameter; the theorems hold from a stated depth on, C108_untouched and C108_reading for each depth. The theorems justify treating containers as values in the rest of the model."),
 "C109": ("proved", "Complex attributes must have no processors that see the raw value before the sub-attributes are processed, and simple ones a declared type: user_direct and group_direct show it for users and groups. C109_order_duplicates, C109_empty_name and C109_empty_response are the witnesses for the conditions: duplicates up to letter case, an empty name, and the empty body of a creation's response (which may be left out, whereas a body with only an undeclared attribute may not)."),
 "C110": ("proved", "C110_in_place and C110_in_place_resource tie the state of the dictionary to the results of the validators. C110_once and C110_config are the parts a user stumbles over."),
 "C111": ("proved", "C111_name_raises shows that the condition on names is needed."),
 "C112": ("proved", "Ordinary bodies as in C34 and C96: no empty key, objects under the URNs, texts in schemas, ASCII for binary attributes (C34 and C96 show what else raises). A query parameter that is the empty text is not covered."),
 "C113": ("proved", "Ordinary bodies as in C97."),
 "C114": ("proved", "Ordinary bodies as in C97."),
 "C115": ("proved", "Ordinary bodies as in C98. Lists of users, groups and both are instances."),
 "C116": ("proved", "Ordinary bodies as in C96; query strings as in C112."),
 "C117": ("proved", "Documents that can be looked at, as in C103."),
 "C118": ("proved", "Bodies that can be looked at, as in C103."),
 "C119": ("proved", "Bodies that can be looked at, as in C103."),
 "C88": ("proved", "C88_dropped is the witness that a success with an unexpected status loses its resource."),
}
