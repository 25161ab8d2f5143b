# Formal model of pyscim in Lean 4 – design

`/repo` is read as text only.  The model lives in `/verif/lean/Verif/`:

| directory | content |
|---|---|
| `Verif/Model/*`  | the model, function by function; every definition cites the lines it models |
| `Verif/Spec/*`   | small specifications that do not mention the model's helper functions |
| `Verif/Lemmas/*` | helper lemmas |
| `Verif/Props/*`  | the property theorems (`C01_…`, `C02_…`), each followed by a non-vacuity `example` |

## Modelling conventions

* **Text** is `Str := List Char`.  Lone surrogates (possible in Python `str`, not in Lean `Char`) are not modelled.
* **Exceptions are values**: a Python function that may raise returns `PyM α := Except PyErr α`, `PyErr` listing the
  exception classes that occur (`TypeError`, `ValueError`, `KeyError`, `AttributeError`, `IndexError`,
  `OverflowError`, `UnicodeEncodeError`).
* **Mutation** becomes returning the new value.  Aliasing between containers is therefore not modelled, except where a
  function visibly relies on it.
* **The Python run-time library** that depends on Unicode tables or on an external standard is a parameter: `class PyEnv`
  (`str.lower`, `\w`, `\s`, `\d`, `float(str)`, `int(str)`, `datetime.fromisoformat`, `isoformat`, `urlparse` validity).  Its fields also
  state the few laws used in proofs (idempotence of `lower`, agreement with ASCII, disjointness of `\s` and `\w`).
  `asciiEnv` is a concrete instance, so the laws are consistent; all concrete examples run in it.
* **Numbers**: `int` is `Int`; `float` is `fin Rat | inf | nan` (the sign of zero is dropped);
  `float(int)` rounds to 53 bits, ties to even.
* **Values** `Val`: `None`, `bool`, `int`, `float`, `str`, `Missing`, `Invalid`, `list`, raw `dict` (string keys),
  `SCIMDataContainer` (its two dictionaries), `datetime` and the parsed objects stored in containers
  (attribute names, patch paths, filters, checkers, sorters).
* **Validation errors** carry their code (and the location they are filed under); message texts and contexts are modelled separately (`Messages`, C102) and do not enter the other claims.

## Plan per property

| id | what is modelled | how it is proved |
|---|---|---|
| C01 | `AttrRep.parse` as a split at the last `:` and the first `.` | equivalence with a declarative grammar; list lemmas |
| C02 | `AttrRep.__eq__`, `top_level_equals` | case analysis; non-transitivity witness by `decide` |
| C03–C07 | container operations on the two association lists | invariant "lower-case index and data agree" preserved by every operation; then read-after-write/frame lemmas |
| C08, C09 | constructor and `to_dict` as mutual structural recursion on nested values | structural induction |
| C10 | `__eq__` | case analysis, induction on keys; witnesses for asymmetry |
| C11 | `__getitem__` | totality of the `PyM` function on the invariant |
| C12–C17 | `ValidationIssues` as two association lists | induction over the merged list; refinement to `Loc → List Err` |
| C18 | base64 encode/decode, concretely, as CPython does (non-alphabet characters skipped) | encode∘decode algebra by induction in steps of 3/4 |
| C19–C22 | every `AttributeType` class | case analysis |
| C23–C28 | `Attribute._process`, `ComplexAttribute._process_complex`, post-processors as functions | induction over items / sub-attributes |
| C29–C35 | `BaseSchema`, `ResourceSchema`, `SchemaExtension` | induction over the declared attributes |
| C36–C42 | `AttributePresenceChecker` | case analysis of `_check_presence`, induction over attributes and items |
| C43–C51 | `match` of every operator as a recursive function on filter trees | structural induction over filter trees |
| C52–C60 | `Filter.parse` with hand-modelled regular expressions | C52/C53 by following the control flow; C54–C56 by induction over filter trees with a printer; C59 by a concrete witness (the property is false) |
| C61–C63 | `PatchPath.parse` | control-flow analysis, using C01 |
| C64–C66 | `Sorter` with a stable merge sort over the key order | core `List.mergeSort` lemmas |
| C67–C69 | `PatchOp` | control-flow analysis |
| C70–C80 | the validators in `request_validators.py` | control-flow analysis on top of the schema layer |
| C81 | `PatchPath.parse` on a printed filter | placeholders by induction over the quoted strings |
| C82, C86 | locations and codes of all issues of `parse`/`dump` | predicates on issue collections, induction over attributes |
| C83–C85 | `PatchOp` operations as returned | refinement of the loop over operations |
| C87, C88 | `BulkOperations` | the loops in closed form, then the theorems about the single validators |
| C91 | `parse` after `dump` and `dump` after `parse`, for schemas with checking post-processors | both directions of each attribute by structural recursion, the object by the closed form of the loop |
| C92 | `validate_resources_attributes_presence`, `validate_resources_sorted`, the list response validator | induction on the list; issues at each location |
| C93 | `ResourceObjectPATCH.parse_request` with the loop over operations and new items | what a loop adds is described by predicates on locations, which compose |
| C94 | `_ServiceProviderConfig.parse_request` | by cases |
| C95 | `SearchRequest.parse` | accepted attributes one by one (`read_top`), then the two insertions by C03/C04 |
| C96 | PUT, POST, GET, list and search requests | storage invariant `FineBody` of parsed bodies: enough for the presence checks and for deleting read-only attributes, kept by deletion; rejected bodies block the later steps |
| C97 | responses with a resource, the configuration or an error | the same invariant for dumping: the totality lemmas are stated for both modes |
| C98 | list responses, with any filter, sorter and presence checker | values made by `dump` are "solid" (typed scalars, containers of such): on them comparisons and look-ups raise only what `skip_if_bad_data` swallows; the early returns leave only resources written without issues for the second choice of schemas and the presence check |
| C99 | `Filter.parse` with all its loops, `PatchPath.parse` | an inductive notion of well-formed operators in `Spec/FilterForm`; invariants of the loops of the parser |
| C100 | `Filter.to_dict`, `Filter.__eq__`, `PatchPath.__eq__` | inductive relation "written alike" in `Spec/FilterForm`; comparison of the dictionary forms by induction on the recursion budget; equal numbers are interchangeable in every comparison |
| C101 | `create_service_provider_config` and the option classes | what each option makes of its arguments, then by cases |
| C102 | the table of messages, the class methods of `ValidationError`, `str.format` on them, `__eq__` | the messages are written out in `Spec/Messages` and compared with the formatted ones; different codes by their beginnings, where these agree by their endings |
| C103 | `PatchOp.parse`, `ResourceObjectPATCH.parse_request` | the loops do not raise on containers that can be read (invariants of the storage, C34); for accepted documents every operation is either checked or raises, whatever the issues so far |
| C104 | `BulkOperations.parse_request`, `BulkRequest` and its operations validator | the operations attribute processed in closed form (what each operation keeps, which errors it has); the loop of the endpoint raises exactly when an operation that is looked at does, since an operation only reports below itself; hence an equivalence |
| C105 | `BulkOperations.dump_response`, `BulkResponse` and its operations validator | the parts of each operation after dumping in terms of what was written; the loop raises exactly when an operation does, since the issues collected before only ever stop at errors and never make a copy raise; body and presence check do not raise for ordinary objects; hence an equivalence |
| C106 | `ValidationIssues` with shared lists and sets (`IssuesHeap`) | a store of lists and sets with references; invariant of all reachable states: collections of different origin hold different lists and sets; each operation is related to the operation on values of `Issues`, with a frame for everything else; histories by induction |
| C107 | `Filter.__call__`, list responses | a typing of filters and of values (`Spec/FilterTypes`); totality of matching by induction on the filter; the typing of values is an invariant of what `dump` stores, shown from the stored keys up to resources with extensions; list responses by C77 and C98 |
| C108 | `SCIMDataContainer` as objects changed in place (`ContainerHeap`) | a memory of cells for lists, dictionaries and containers; frame: cells no container holds are kept by each operation, hence by each program; refinement: a relation between memory and values with the list of cells that make up a value, free of duplicates, is preserved by each operation; histories by induction |
| C109 | `BaseSchema.parse/dump`, request and response validators | a relation on bodies (`Spec/Declared`): the same for each declared attribute; it is preserved by the construction of containers and by processing, by induction on the attributes; spelling, order and undeclared attributes are instances |
| C110 | request validators as changes of the caller's `query_string` (`QueryState`) | the state after each request in closed form over lookups; invariants of histories by induction |
| C111 | `ValidationIssues` over whole errors and `to_dict` with its flags (`IssueReport`) | simulation by the collections of `Issues`; the report by induction over the collection, generalising C15 |
| C112 | nothing new; the words are in `Spec/Valid` and speak about the document | per attribute by mutual induction over attributes and their sub-attributes; per schema through the invariant of the loop over attributes; presence by reading what was stored back from the document |
| C113 | nothing new; the words are in `Spec/Valid` and speak about the response | as C112, with a correspondence between the places of an attribute in the document and what the presence checks look at; what is stored under `meta` is what the document holds |
| C114 | the predefined errors of `scim_error.py` | C113's lemmas for the schema of errors; the four attributes spelt out; the predefined errors by their common shape |
| C115 | the list response validator | the loop over the resources in closed form, C113 for each of them, C73/C74/C77/C66 for the checks of numbers, filter and order |
| C116 | the search and list request validators | reading by the schema split per attribute (`Reads`), each attribute and its parser in closed form; the query string by its entries (C110), names by C112 |
| C117 | the patch document | the base schema by `Reads`, each operation by cases (removal, update at a path, update without path), the issues of the document from those of the operations (C84); a value without path by C112 and what is left after dropping the errors about `schemas` |
| C118 | the patch request at the endpoint | C117 for the document, C112 for the query, C103 for exceptions (read back from the parsed operations to the given ones), C93 for the presence checks: parsed operations always have a word, so that only `schemas` and `Operations` can be missing |
| C119 | two or more patch requests at the endpoint | from C118: being complete is a condition on `schemas` and on each operation alone |
| C89, C90 | `get_schema_rep`, `to_dict`, the Schema resource with its recursive post-processor | induction on the depth of calls, with a lemma about one level |

Properties that turn out to be false of the code are settled by proving their negation on a concrete witness; the true part
is kept as a `_partial` theorem.  The outcome is recorded below and in `MANIFEST.json`.

## Trusted base

* **Lean 4.33.0's kernel**, and the axioms of Lean's own library listed per theorem below. No axiom is added, no `sorry`,
  `admit`, `native_decide`, `bv_decide`, `implemented_by`, `extern` or `unsafe` is used. Mathlib is not imported by the
  model; `decide +kernel` (evaluation by the kernel) is used for concrete data.
* **The reading of the Python code** in `Verif/Model/*`. Each definition cites the lines it stands for; the
  simplifications are listed under "What is not modelled".
* **`PyEnv`**, the parameters for the Python run-time library with the laws below. A theorem with `[PyEnv]` holds for
  every implementation that satisfies the laws; `asciiEnv` is one, so they are consistent.
  * `lower_idem`, `lower_eq_nil`, `lower_ascii`: `str.lower` is idempotent, empty only on the empty string, and the usual
    map on ASCII texts.
  * `isWord_ascii`, `isSpace_ascii`, `digit_ascii`: the classes `\w`, `\s`, `\d` are the usual ones on ASCII;
    `space_not_word`, `digit_word`: `\s` and `\w` are disjoint, `\d` is contained in `\w`.
  * `parseFloat_chars`: a text that `float()` accepts contains neither `|` nor a quote.
  * `parseInt_nil`: `int("")` raises `ValueError`. `urlOk_nil`: the empty text is no URL.
  * `fromIso_nil`: `datetime.fromisoformat("")` raises `ValueError`. `isoFormat_ne_nil`: `isoformat()` is never empty.
* **Hypotheses inside theorems** that stand for library behaviour: `C20` assumes that `isoformat` and `fromisoformat`
  are inverse on the date at hand.

### Axioms

`propext`, `Quot.sound` and `Classical.choice` are Lean's three standard axioms. Theorem names without their namespace:

<!-- axioms -->
* `Quot.sound` (1): C111_errors
* `propext` (8): C02_eq_iff, C02_refl, C02_symm, C02_trans, C02_ignores_case, C02_topLevel_iff, C08_roundtrip, C102_equal
* `Quot.sound`, `propext` (9): C13_canProceed_many, C16_pop_frame, C17_get, C21_nearest, C32_short_extension, C32_undeclared, C64_unique, C109_entries, C111_operations
* `Classical.choice`, `Quot.sound`, `propext` (422): C01_parse_iff, C01_print_parse, C01_parse_print, C01_parse_iff_regex, C01_parse_groups, C02_not_transitive, C03_read_after_write, C03_read_after_write_names, C04_write_frame, C04_delete_frame, C05_write_sub, C05_write_sub_list, C06_extension_new, C06_extension_existing, C06_other_spelling_raises, C06_absent_extension_reads_core, C07_delete, C07_delete_absent, C07_delete_keys, C07_stale_key_stays, C09_lookup, C09_spelling, C10_eq_terminates, C10_eq_iff_subset, C10_eq_dict, C10_empty_eq, C10_eq_scalars, C10_refl, C10_not_symmetric, C10_case_duplicate_not_refl, C10_extension_not_refl, C10_bad_key_raises, C10_nan_not_refl, C11_read_total, C11_scalar_sub, C11_empty_key_raises, C12_merge_errors, C12_merge_hasIssues, C12_hasIssues_iff, C13_canProceed_adds, C14_merge_blocks, C14_merge_keeps_blocked, C14_merge_carries_blocked, C14_warning_blocks, C15_report, C15_report_distinct, C16_pop_keeps_others, C16_pop_sublist, C16_pop_removes_partial, C16_pop_adjacent_fails, C16_pop_returns_rest, C17_get_canProceed, C17_get_merge_keyError, C18_encode_iff_canonical, C18_binary_iff, C19_parse_dichotomy, C19_dump_dichotomy, C19_unknown, C20_dump_parse, C20_parse_dump, C21_integer_accepts, C21_decimal_accepts, C21_rejects, C21_exact, C22_parse_raises_iff, C22_dump_raises_iff, C23_non_list, C23_items, C23_null_item, C24_single, C24_multi, C24_decides, C24_bound_not_enforced, C25_null, C26_single_primary, C26_total, C27_single, C27_multi, C27_declared, C28_id, C28_no_bulkId, C29_declared, C29_dump, C30_not_object, C30_dump, C31_field, C31_total, C31_process, C32_full, C32_short, C33_repeated, C33_kept, C33_added, C33_repetition_undetected, C34_total, C34_user, C34_group, C34_certificate_raises, C34_schemas_number_raises, C34_urn_key_raises, C34_empty_key_raises, C35_resource_type, C36_missing_iff, C36_simple, C36_missing_requested, C37_never_returned, C37_default, C38_include, C39_exclude, C40_requests, C40_responses, C41_checker_iff, C41_checker, C41_issues, C41_bad_reported, C42_locations, C43_decided, C43_bool, C44_strict_nonstrict, C44_nonstrict_may_raise, C45_permutation, C46_and, C46_or, C46_not, C46_raises, C47_strings, C47_case_ignored, C48_eq_ne, C48_eq_ne_dates, C48_neither, C49_present, C49_never_missing, C49_complex_raises, C50_simple, C50_complex, C50_null_item, C51_undeclared, C51_not_complex, C51_false, C52_invalid_iff_issues, C52_issues_block, C53_only_overflow, C53_inf_raises, C54_print_parse, C54_grammar, C55_quoted_verbatim, C56_precedence, C56_precedence_lists, C57_operator_case, C57_present_case, C58_unbalanced, C59_no_mix_partial, C59_false, C60_value, C60_reject, C61_plain, C62_consistent, C62_invalid_iff_issues, C62_exceptions, C62_raises, C63_malformed, C63_only, C64_permutation, C64_sorted, C64_total, C64_key, C64_mixed_case, C65_key, C65_missing_last, C65_without_value, C66_idempotent, C66_result_accepted, C66_equal_iff, C66_in_order_accepted, C66_accepted_iff, C67_partial, C67_deep, C67_reported, C67_user, C67_group, C67_parent_read_only, C68_accepted, C68_reported, C69_partial, C69_accepted_partial, C69_complex, C70_put, C70_put_accepted, C70_post, C70_post_accepted, C70_response, C70_get_response, C70_post_response, C70_patch_response, C70_error, C70_search, C71_read_only, C71_kept, C71_sub_read_only, C71_sub_kept, C71_ext_sub_read_only, C71_ext_sub_kept, C72_missing_iff, C72_reported, C72_server_issued, C73_number, C73_pages, C73_accepted, C74_missing, C74_accepted_iff, C74_status, C74_range, C75_post_header, C75_post_status, C75_get, C75_patch, C75_status, C75_header, C75_accepted, C75_mismatch, C76_both, C76_none, C76_checker, C76_bad_names, C76_query, C77_issues, C77_accepted, C77_raises, C78_delete, C78_patch, C79_accepted, C79_bad_number, C80_request, C80_response, C81_filter_path, C81_filter_path_sub, C81_placeholder, C82_locations, C83_shape, C84_kept, C85_no_path, C85_complex, C86_codes, C86_dump_codes, C87_accepted, C88_accepted, C88_dropped, C89_representation, C89_raises, C89_schema_itself, C89_decimal, C90_consistent, C90_caseExact, C91_read_write, C91_write_read, C91_user, C91_group, C91_service, C92_presence, C92_accepted, C93_withheld, C93_items, C93_accepted, C93_user, C93_group, C93_raises, C94_dropped, C94_filter, C94_accepted, C95_accepted, C95_together, C95_descending, C95_exclude_ignored, C96_put, C96_post, C96_user, C96_group, C96_get, C96_list, C96_search, C96_filter_raises, C96_names_raise, C96_number_raises, C96_schemas_raise, C97_dump, C97_resource, C97_responses, C97_user, C97_group, C97_config, C97_error, C97_headers_raise, C97_schemas_raise, C98_list, C98_users_groups, C98_urn_raises, C98_schemas_raise, C99_formed, C99_path, C100_eq, C100_equivalence, C100_same_results, C100_texts, C100_path_eq, C100_case, C100_by_hand, C100_nan, C100_path_case, C101_created, C101_refused, C101_limits, C101_unsupported, C102_made, C102_names, C102_shown, C102_code, C102_operator_type, C103_document, C103_request, C103_user, C103_group, C103_user_request, C103_group_request, C103_raises, C103_endpoint_raises, C104_request, C104_unlimited, C104_no_list, C104_sound, C104_user_data, C104_group_data, C104_raises, C105_response, C105_no_list, C105_no_object, C105_sound, C105_served, C105_raises, C106_unrelated, C106_history, C106_kinds, C106_new, C106_add, C106_merge, C106_merge_argument, C106_get, C106_pop, C106_view, C106_view_blind, C107_decides, C107_written, C107_list, C107_reported, C107_users_groups, C107_prefix_raises, C107_presence_raises, C107_date_raises, C107_number_raises, C107_hidden, C108_untouched, C108_reading, C108_new, C108_get, C108_set, C108_del, C108_toDict, C108_separate, C108_history, C108_list_handed_over, C108_live, C108_same, C108_inner_list, C109_declared, C109_spelling, C109_order, C109_undeclared, C109_apart, C109_requests, C109_responses, C109_users, C109_order_duplicates, C109_empty_name, C109_empty_response, C110_in_place, C110_in_place_resource, C110_frame, C110_resources, C110_list_after, C110_restored, C110_once, C110_config, C111_report, C111_plain, C111_pop, C111_reach, C111_message_code, C111_name_raises, C112_query, C112_post, C112_put, C112_assets, C113_resource, C113_read_change, C113_create, C113_assets, C114_accepted, C114_predefined, C115_list, C115_filtered, C115_sorted, C115_users_groups, C116_search, C116_list, C117_document, C117_user, C117_group, C118_request, C118_raises, C118_user, C118_group, C119_each, C119_among
<!-- end axioms -->

## What is modelled

| source | model | remarks |
|---|---|---|
| `src/data/container.py` | `Container`, `ContainerHeap`, `AttrRep`, `Equality`, `Value` | all of it; in `Container` a container is a value, in `ContainerHeap` an object that is changed in place |
| `src/error.py` | `Issues`, `IssuesHeap`, `Messages`, `IssueReport` | in `Issues` codes instead of messages and contexts; `Messages` has all class methods with their texts (a value is represented by its `str` and its `repr`); `IssueReport` has the collections over whole errors and `to_dict` with messages and contexts |
| `src/data/type.py` | `Types` | all types, parse and dump |
| `src/data/attributes.py` | `Attributes` | `Attribute`, `ComplexAttribute`, `Attributes`; `to_dict` in `SchemaDoc` |
| `src/data/schemas.py` | `Schemas` | `BaseSchema`, `ResourceSchema`, `SchemaExtension`, `with_extension`; `get_schema_rep` and `SchemaExtension.to_dict` in `SchemaDoc` |
| `src/attributes_presence.py` | `Presence` | all of it |
| `src/data/operator.py` | `Operator` | all operators |
| `src/filter.py`, `src/utils.py` | `Filter` | the parser, `to_dict` and `__eq__` |
| `src/data/path.py` | `Path` | all of it |
| `src/sorter.py` | `Sorter` | positions stand for object identity |
| `src/assets/schemas/*.py` | `Assets/*` | `user`, `group`, `resource_type`, `service_provider_config`, `error`, `list_response`, `search_request`, `patch_op`, `bulk_ops`, `schema` |
| `src/request_validators.py` | `Validators`, `ListChecks`, `Bulk`, `QueryState` | all validators; `QueryState` has the caller's query string as an object |
| `src/assets/config.py` | `Config` | all; the annotations are not checked by the code, so values are arbitrary. Of the configuration the validators use `bulk.max_operations` only |
| `src/assets/scim_error.py` | `Assets/ErrorBodies` | all ten constants |

## What is not modelled, and simplifications

* Object identity and aliasing: functions return new values, a caller's data is never changed behind its back. For issue
  collections `IssuesHeap` models the sharing, and C106 shows that it does not matter for collections of different origin:
  in the code, a collection that was taken with `get` or `pop` is only read, or merged into a collection it was not taken
  from. For containers `ContainerHeap` models the sharing, and C108 shows that on objects without shared parts the
  operations are those on values; that the code of the validators only ever works on such objects is not proved. The operations of a bulk body that the code updates in place are a rebuilt list. `list ==` compares items, without
  Python's identity shortcut (visible for `nan` only).
* The state of an object after an exception (an exception is the whole result), except in `IssuesHeap` and
  `ContainerHeap`.
* Dictionary keys that are not strings; texts with lone surrogates; the sign of `-0.0`; the 4300-digit limit of `int`;
  memory limits. `RecursionError` occurs only in `attributes.dump` of the Schema resource, where the depth of calls is a
  parameter; the theorems about it hold for every value of the parameter.
* Texts of messages and the contexts of errors outside `Messages` and `IssueReport`. Elsewhere two errors are the same if their codes and locations are.
* `sorted` is a stable insertion sort; `C64_unique` shows that the choice of the algorithm is not observable.
* A complex post-processor that would turn a multi-valued value into something else than a list, and a bulk location
  that is no text, are modelled as `TypeError`.
* The tables of resources of the bulk validators are lists of pairs in insertion order.
* The caller's query string is changed in place: in `Validators` the changed one is part of the result, `QueryState` has it as state (C110).

## Outcome

All properties are settled by theorems (`MANIFEST.json` lists them). Four are false of the code in general; each has a
theorem with a witness, and a theorem about the part that holds:

| id | what fails | what holds |
|---|---|---|
| C16 | `pop` skips every second of adjacent issues with the same code (`C16_pop_adjacent_fails`) | `C16_pop_removes_partial`, frame clauses |
| C59 | placeholders of groups and of complex filters can collide (`C59_false`) | `C59_no_mix_partial` |
| C67 | a path to a writable sub-attribute of a read-only attribute is accepted (`C67_parent_read_only`) | `C67_deep`, instances `C67_user`, `C67_group`; `C67_partial` |
| C69 | a required complex attribute can be removed (`C69_complex`) | `C69_partial`, an exact condition for the others |

Properties with side conditions have witnesses that show why the conditions are needed (see the notes in
`MANIFEST.json`).

### Behaviour worth knowing (each item is a theorem, an example or follows from the model)

* A patch operation without `op` is never reported as lacking it at the endpoint: the parser takes it for a removal and writes `remove` into the parsed request before presence is checked (C118).
* A value without path is checked as a whole resource, then the errors about its `schemas` are dropped: a list of unknown schemas is accepted there, a list with something that is no text is not. A list for a multi-valued attribute with a read-only part is always refused without path, even an empty one; with a path it is accepted, read-only parts included (C117).
* A search needs no `schemas`; its `sortOrder` may be any text, and `startIndex` and `count` may be negative. A GET for a list without a query string is refused, one with an empty query string is not (C116).
* In a list response `Resources: null` is refused, a `startIndex` of 0 is never compared with the one asked for, `itemsPerPage` is not compared when there are no `Resources`, and truth values count as whole numbers (C115).
* The predefined errors in `scim_error.py` have no `schemas`, so each is refused as it stands by the validator for error responses (C114). That validator accepts any text as `scimType`, because binding the attribute to its schema drops the canonical-value check, and any status in 200..599.
* **Issues**: merging an issue that does not block creates an empty stop entry, so that it blocks after all
  (`C14_warning_blocks`). What `get` returns cannot always be merged (`C17_get_merge_keyError`). The collection
  returned by `pop` says "has issues" whenever the location had an entry.
  What is added to the result of `get` is added to the original too (`C106_view`); merging makes the *argument* block at
  each of its locations (`C106_merge_argument`); merging a collection into itself at another location raises
  `RuntimeError` half-way (example).
* **Sharing of containers**: `c["emails"] = xs` stores the list itself, and a later `c["emails.value"] = [...]` with more
  values than `xs` has items appends to the caller's `xs` (`C108_list_handed_over`); `SCIMDataContainer(c)` of a container has
  the same content as `c`, also after later writes to either (`C108_same`); a list inside a list is shared by document, container and `to_dict` (`C108_inner_list`).
* **Query strings**: a dictionary serves one list request only; the next one with it is rejected, even if there never was a
  filter (`C110_once`), and so are requests for the schemas or resource types (`C110_config`).
* **Bodies**: of names that differ by letter case only the last one counts (`C109_order_duplicates`); an entry with the empty name inside
  a complex value hides all sub-attributes next to it (`C109_empty_name`); an undeclared attribute turns an empty response to a creation, which is
  accepted, into one that must be complete (`C109_empty_response`).
* **Containers**: overwriting under another spelling leaves the old key visible (`C07_stale_key_stays`); writing an
  extension attribute when the URN is stored in another spelling raises `KeyError` (`C06_other_spelling_raises`);
  an empty key hijacks look-ups without schema (`C11_empty_key_raises`); equality is a subset test, `{}` equals
  everything, and a container with an extension may differ from itself (C10).
* **Attribute names**: equality is not transitive (`C02_not_transitive`); `members.$ref` is not a name.
* **Types**: `Integer.parse(inf)` raises `OverflowError`, `nan` `ValueError`; booleans are integers.
* **Schemas**: `{"schemas": [123]}` raises `AttributeError`; canonical values are not enforced for attributes bound to
  a schema (`C24_bound_not_enforced`); the check for repeated extensions misses other spellings
  (`C33_repetition_undetected`). PUT removes `schemas` as it is declared read-only.
* **Round trip**: when an extension has an attribute named like a core attribute, writing copies the core value into an
  absent extension (example in `Props/RoundTrip.lean`).
* **Filters**: `And` ignores operands without value; `pr` on complex multi-valued attributes raises
  (`C49_complex_raises`); `a eq inf` raises (`C53_inf_raises`); a lone quote is the empty string; numbers beyond 2^53
  lose precision.
* **Equality of filters**: `userName pr` and `username pr` select the same resources but are not equal (`C100_case`);
  `a eq true` and `a eq 1` are equal; names with dots in operators made by hand are compared by their last part
  (`C100_by_hand`); a filter with `nan` differs from itself (`C100_nan`).
* **Sorting**: falsy values count as missing; `nan` and mixed case sensitivity break the order (`C64_mixed_case`).
* **PATCH**: `Add` counts as remove; an unknown path makes the presence check raise; one bad operation switches off
  the checks of the others; missing `Operations` raise. A value that is no list for a multi-valued complex attribute,
  a value without path that is no object, and a malformed path raise (`C93_raises`). Values without path for a
  multi-valued attribute with a read-only part are always rejected (example in `Props/PatchRequests.lean`). Setting a
  multi-valued complex attribute to null is accepted by the parser and raises in the endpoint (`C103_request`); replacing
  the items selected by a filter with an object raises as well (`C103_endpoint_raises`), and so does setting a single
  complex attribute with a read-only part to null (`C103_raises`).
* Bulk requests with a method in small letters pass the schema (canonical values are compared without case) and raise
  `KeyError` in the endpoint; an operation without method does too, one without path is reported. A path without slash is
  reported, unless some operation of the request is ill-typed, which skips that check: then it raises `IndexError`
  (`C104_raises`).
* Bulk responses raise `KeyError` for a method in small letters as soon as there is a location, and `TypeError` for a
  successful deletion with location and response, as the validator of deletions takes no body (`C105_raises`). A request
  without a list of operations raises, a response without one is answered (`C104_no_list`, `C105_no_list`).
* **Search**: `sortOrder` is compared with the wrong attribute, the order is always descending (`C95_descending`);
  `excludeAttributes` alone is not taken into account (`C95_exclude_ignored`).
* **List responses**: a `startIndex` of 0 is not compared; one resource that raises hides the others (`C77_raises`),
  e.g. with the filter `emails pr`, `userName gt 5`, `meta.created eq 5` or `userName:foo eq "x"` (`C107_hidden` and the
  other witnesses of C107).
  With several schemas, a resource that nests attributes under its own main URN is written without complaint and then
  makes the presence check raise `AttributeError`, as no schema is found for it any more (`C98_urn_raises`); a list
  among its `schemas` raises `TypeError` (`C98_schemas_raise`).
* **Responses**: headers that are no dictionary, numbers among the `schemas` and letters that are not ASCII in binary values
  raise (`C97_headers_raise`, `C97_schemas_raise`).
* **Bulk**: lower-case or missing methods raise `KeyError`; an unknown location is reported, but the last resource's
  validator is used anyway; a successful operation with an unexpected status is accepted and its resource dropped
  (`C88_dropped`); a failure with an empty response is accepted and not counted.
* **Schema documents**: reporting a string attribute without `caseExact` raises `TypeError` (`C90_caseExact`; the location
  holds an `AttrRep`, which cannot be hashed); schemas with decimal attributes have representations that are rejected
  (`C89_decimal`); the Schema resource has no representation of its own (`C89_schema_itself`). Descriptions of top-level
  attributes are lost when they are bound to a schema, and the attributes of extensions are listed among those of the
  schema. Type names are accepted in any letter case, but only `complex` and `string` in lower case keep their
  sub-attributes and `caseExact`.

## Testing the theorems

`tools/mutate.py` applies realistic bugs to the model in a scratch copy and records which theorems fail in
`seeded/LOG.jsonl`; `seeded/mutants*.py` hold the edits.

Not run to a verdict, so not in the log: the edits in `seeded/mutants21.py` (against C118, and C119 which follows from it), and
`pbd-4` of `seeded/mutants20.py`, whose build ran out of memory. C118 and C119 are therefore proved but not yet tested against
wrong programs of their own.
