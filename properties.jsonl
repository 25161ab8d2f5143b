{"id": "C01", "title": "Attribute names are parsed by the documented grammar, and printing undoes parsing", "statement": "AttrRep.parse(s) succeeds exactly when s is [schema ':'] attr ['.' sub] with attr a run of word characters (or '$ref' as the whole attribute part), sub a run of word characters and schema a ':'-separated list of non-empty runs of word characters, '.' and '-'; the returned schema/attr/sub_attr are those three parts, and repr of the result is s again.", "quantifier": "every string s", "why_tests_cant": "the set of strings is infinite and the regular expression backtracks over ':' and '.'; tests only sample a few names", "anchors": ["src/data/container.py:AttrRep.parse", "src/data/container.py:AttrRep.__init__", "src/data/container.py:AttrRep.__repr__"]}
{"id": "C02", "title": "Attribute-name comparison ignores letter case, and ignores the schema when one side has none", "statement": "a == b holds exactly when the attr parts and sub_attr parts are equal up to letter case and the schemas are equal up to letter case or one of them is absent; it is reflexive and symmetric, and transitive among names that all carry a schema (it is not transitive in general).", "quantifier": "all attribute names a, b, c", "why_tests_cant": "equivalence laws quantify over all pairs and triples of names", "anchors": ["src/data/container.py:AttrRep.__eq__", "src/data/container.py:AttrRep.top_level_equals"]}
{"id": "C03", "title": "Reading an attribute returns the value last written, whatever letter case is used", "statement": "After container[a] = v for a plain (non-extension, no sub-attribute) attribute a, container[b] returns v for every b that has the same attr up to letter case, and no schema that names a key of the container.", "quantifier": "all containers reachable by any history of writes, all attribute spellings, all values", "why_tests_cant": "quantifies over every container state and every spelling of a name", "anchors": ["src/data/container.py:SCIMDataContainer.__setitem__", "src/data/container.py:SCIMDataContainer.__getitem__"]}
{"id": "C04", "title": "Writing or deleting one attribute does not disturb the others", "statement": "After container[a] = v or del container[a] for a plain attribute a, reading any attribute whose name differs from a (ignoring case) and whose schema does not name a key of the container gives exactly what it gave before.", "quantifier": "all containers, all pairs of differently named attributes", "why_tests_cant": "a frame condition over all states and all other keys", "anchors": ["src/data/container.py:SCIMDataContainer.__setitem__", "src/data/container.py:SCIMDataContainer.__delitem__", "src/data/container.py:SCIMDataContainer.__getitem__"]}
{"id": "C05", "title": "Sub-attributes of a complex attribute can be written and read back without losing siblings", "statement": "After container['a.s'] = v (v not a list) on a container where a is absent or is itself a container, container['a.s'] returns v, and container['a.t'] is unchanged for every other sub-attribute t; the same holds item by item when a list is written to a multi-valued complex attribute that is absent.", "quantifier": "all containers, attributes, sub-attributes and values", "why_tests_cant": "quantifies over all nested states", "anchors": ["src/data/container.py:SCIMDataContainer.__setitem__", "src/data/container.py:SCIMDataContainer._can_assign_to_complex"]}
{"id": "C06", "title": "Extension attributes live under their own schema and never clash with core attributes", "statement": "Writing an attribute of an extension stores it under the extension's URN: it is read back by its qualified name, and the core attribute of the same name keeps its value.", "quantifier": "all containers and all extension attributes", "why_tests_cant": "all states, all names; unit tests use one extension", "anchors": ["src/data/container.py:SCIMDataContainer.__setitem__", "src/data/container.py:SCIMDataContainer.__getitem__"]}
{"id": "C07", "title": "A deleted attribute is gone", "statement": "After del container[a] for a plain attribute a, container[b] is Missing for every spelling b of a; deleting an absent attribute changes nothing and does not raise.", "quantifier": "all containers built from dictionaries or by writes, all attribute names", "why_tests_cant": "all states and spellings", "anchors": ["src/data/container.py:SCIMDataContainer.__delitem__"]}
{"id": "C08", "title": "Turning a dictionary into a container and back loses nothing", "statement": "SCIMDataContainer(d).to_dict() == d for every JSON-like dictionary d with string keys, at any nesting depth (objects nested in lists one level deep).", "quantifier": "all JSON objects of any depth and size", "why_tests_cant": "structural induction over unbounded nesting", "anchors": ["src/data/container.py:SCIMDataContainer.__init__", "src/data/container.py:SCIMDataContainer.to_dict"]}
{"id": "C09", "title": "Attribute lookup is case-insensitive", "statement": "For a container built from a dictionary d, reading name n returns the (container form of the) value of the last key of d equal to n up to letter case, and Missing when there is none; two spellings of the same name always read the same value.", "quantifier": "all dictionaries and all names", "why_tests_cant": "all dictionaries, including those with keys differing only in case", "anchors": ["src/data/container.py:SCIMDataContainer.__init__", "src/data/container.py:SCIMDataContainer.__getitem__"]}
{"id": "C10", "title": "Container equality is the subset test it implements, not an equivalence", "statement": "c == d holds exactly when every key of c, read from d, gives an equal value; in particular it is reflexive for containers whose keys (at every level) are plain attribute names with no two equal up to case and whose values contain no NaN, the empty container equals every container, and equality is not symmetric.", "quantifier": "all containers whose keys are plain attribute names", "why_tests_cant": "laws over all pairs of containers", "anchors": ["src/data/container.py:SCIMDataContainer.__eq__"]}
{"id": "C11", "title": "Reading a plain attribute never raises", "statement": "container[a] returns a value or Missing (it does not raise) for every plain attribute a, for every container obtained from a JSON object that has no empty-string key; a sub-attribute of an absent attribute, or of a value that is neither an object nor a list, is Missing.", "quantifier": "all JSON objects and attribute names", "why_tests_cant": "totality over all data", "anchors": ["src/data/container.py:SCIMDataContainer.__getitem__"]}
{"id": "C12", "title": "Merging never loses or invents an issue", "statement": "After issues.merge(other, location), the errors reported at any location l are those already there followed by those other reports at l with the prefix location removed; has_issues(l) is true exactly when it was true before or other has an issue at a matching place.", "quantifier": "all issue collections and locations", "why_tests_cant": "all histories of add and merge", "anchors": ["src/error.py:ValidationIssues.merge", "src/error.py:ValidationIssues.has_issues"]}
{"id": "C13", "title": "A blocking issue blocks its location and everything below it, and nothing else", "statement": "For a collection built by add only, can_proceed(l) is false exactly when some issue was added with proceed=False at a prefix of l.", "quantifier": "all histories of add, all locations", "why_tests_cant": "all histories", "anchors": ["src/error.py:ValidationIssues.add", "src/error.py:ValidationIssues.can_proceed"]}
{"id": "C14", "title": "Merging preserves which locations are blocked", "statement": "After merge(other, location), a location that was blocked stays blocked, every location blocked in other is blocked below the prefix, and a location is newly blocked only by an issue present in other. (Non-blocking issues of other are expected not to block; the implementation makes them block.)", "quantifier": "all issue collections and locations", "why_tests_cant": "all histories of add and merge", "anchors": ["src/error.py:ValidationIssues.merge", "src/error.py:ValidationIssues.can_proceed"]}
{"id": "C15", "title": "The issue report lists every error at its own location", "statement": "to_dict() contains, at the nested path given by the string form of each location, exactly the codes of the errors recorded for that location, in order, and no '_errors' entry anywhere else, provided no two locations have the same string form and no location part is the string '_errors'.", "quantifier": "all issue collections", "why_tests_cant": "all shapes of nested locations", "anchors": ["src/error.py:ValidationIssues.to_dict"]}
{"id": "C16", "title": "Popping a code removes that code from that location", "statement": "After pop(location, code) no issue with that code remains at the location, issues of other codes and other locations are untouched. (Fails when two issues with the code are adjacent.)", "quantifier": "all issue collections, locations and codes", "why_tests_cant": "list mutation during iteration depends on arrangement", "anchors": ["src/error.py:ValidationIssues.pop"]}
{"id": "C17", "title": "Looking at a location shows exactly the issues below it", "statement": "get(location) contains an issue at l exactly when the original contains it at location+l.", "quantifier": "all issue collections and locations", "why_tests_cant": "all shapes", "anchors": ["src/error.py:ValidationIssues.get"]}
{"id": "C18", "title": "Binary accepts exactly canonical base64", "statement": "Binary.parse and Binary.dump accept an ASCII string exactly when it is the base64 encoding (with padding, no other characters) of some byte string, and return it unchanged.", "quantifier": "all ASCII strings", "why_tests_cant": "infinite set of strings; needs the decode/encode algebra", "anchors": ["src/data/type.py:Binary._validate_encoding", "src/data/type.py:Binary.parse", "src/data/type.py:Binary.dump"]}
{"id": "C19", "title": "A type parser either returns a value of its type and no issue, or Invalid and a blocking issue", "statement": "For every attribute type and every input, parse and dump (when they do not raise) return Invalid together with at least one issue that blocks, or a value of the type's result type and no issues.", "quantifier": "all types and all input values", "why_tests_cant": "all values", "anchors": ["src/data/type.py:AttributeType.parse", "src/data/type.py:AttributeType.dump"]}
{"id": "C20", "title": "Dumping and parsing a value are inverse", "statement": "For every type, if dump(v) succeeds with w and isoformat/fromisoformat are inverse, then parse(w) succeeds with v (for booleans, strings, references, binaries, dates, integers and decimals).", "quantifier": "all types and values", "why_tests_cant": "all values", "anchors": ["src/data/type.py:DateTime.parse", "src/data/type.py:DateTime.dump", "src/data/type.py:Integer.parse", "src/data/type.py:Decimal.dump"]}
{"id": "C21", "title": "Integers may be written as integral floats, and nothing else is coerced", "statement": "Integer.parse accepts an int (or bool), or a finite float with no fractional part, which becomes that int; Decimal.parse accepts a float or an int, which becomes the nearest float; every other input is rejected with a type issue.", "quantifier": "all values", "why_tests_cant": "all numbers", "anchors": ["src/data/type.py:Integer.parse", "src/data/type.py:Decimal.parse"]}
{"id": "C22", "title": "Type parsers raise only on the inputs listed", "statement": "parse and dump never raise, except Integer on infinities (OverflowError) and NaN (ValueError), Decimal on integers too large for a float (OverflowError) and Binary on non-ASCII text (UnicodeEncodeError).", "quantifier": "all types and all values", "why_tests_cant": "totality over all values", "anchors": ["src/data/type.py:Integer.parse", "src/data/type.py:Decimal.parse", "src/data/type.py:Binary._validate_encoding"]}
{"id": "C23", "title": "Multi-valued attributes keep their items in place", "statement": "Parsing or dumping a non-list for a multi-valued attribute gives Invalid and a blocking issue; for a list of n items, without post-processors, the result is a list of n items whose i-th element is the parse of the i-th input, and issues of item i are reported under index i.", "quantifier": "all simple multi-valued attributes and all lists", "why_tests_cant": "lists of any length", "anchors": ["src/data/attributes.py:Attribute._process"]}
{"id": "C24", "title": "Enforced canonical values are really enforced", "statement": "When an attribute enforces canonical values, a parsed value is returned without issue only if it is one of them (ignoring case unless the attribute is case-exact); otherwise the value becomes Invalid and an issue is reported at its place.", "quantifier": "all attributes, canonical value lists and inputs", "why_tests_cant": "all values", "anchors": ["src/data/attributes.py:Attribute._process", "src/data/attributes.py:Attribute._is_canonical"]}
{"id": "C25", "title": "null is always accepted and left alone", "statement": "parse(None) and dump(None) return None with no issues for every attribute, simple or complex.", "quantifier": "all attributes", "why_tests_cant": "all attributes", "anchors": ["src/data/attributes.py:Attribute._process", "src/data/attributes.py:ComplexAttribute._process_complex"]}
{"id": "C26", "title": "More than one primary item is always reported, and one or none never is", "statement": "validate_single_primary_value reports an issue exactly when at least two items have primary equal to true, and returns the items unchanged.", "quantifier": "all lists of items", "why_tests_cant": "lists of any length", "anchors": ["src/data/attributes.py:validate_single_primary_value"]}
{"id": "C27", "title": "Parsed complex values contain declared sub-attributes only", "statement": "For a complex attribute without post-processors, every key of a parsed value is a declared sub-attribute, present exactly when the input has it, and holding the parse of the input's value; every issue is located under a declared sub-attribute (or item index and sub-attribute).", "quantifier": "all complex attributes and all inputs", "why_tests_cant": "all inputs with arbitrary extra keys", "anchors": ["src/data/attributes.py:ComplexAttribute._process_complex"]}
{"id": "C28", "title": "A resource id never contains the reserved word bulkId", "statement": "If parsing or dumping an id succeeds without issues, the returned string does not contain 'bulkId'; if the string contains it the result is Invalid with an issue.", "quantifier": "all strings", "why_tests_cant": "all strings", "anchors": ["src/data/schemas.py:bulk_id_validator", "src/data/schemas.py:id_"]}
{"id": "C29", "title": "Parsed resources contain declared attributes only", "statement": "Every key of the container returned by schema.parse or schema.dump is the name of a declared top-level attribute of the schema or the URN of one of its extensions, and every key inside an extension is a declared attribute of that extension; undeclared input is dropped.", "quantifier": "all schemas and all inputs", "why_tests_cant": "arbitrary extra input keys", "anchors": ["src/data/schemas.py:BaseSchema._process_data"]}
{"id": "C30", "title": "Bodies that are not objects are rejected", "statement": "schema.parse/dump of None, a list, a string, a number or a boolean returns Invalid with one blocking issue (15 for None, 2 otherwise).", "quantifier": "all schemas and all non-object values", "why_tests_cant": "all values", "anchors": ["src/data/schemas.py:BaseSchema._process"]}
{"id": "C31", "title": "The 'schemas' field is checked exactly", "statement": "validate_schemas_field reports an unknown schema exactly when some listed schema is not known (once, however many there are), a missing main schema exactly when the main schema is not listed, and a missing extension for exactly the known extension keys present in the data but not listed; comparisons ignore case.", "quantifier": "all data, all lists of schemas", "why_tests_cant": "all lists", "anchors": ["src/data/schemas.py:validate_schemas_field"]}
{"id": "C32", "title": "Attributes of a schema are found by any spelling of their name", "statement": "schema.attrs.get(rep) finds the declared attribute for every spelling of its name, with or without the schema prefix, and returns nothing for undeclared names.", "quantifier": "all schemas and names", "why_tests_cant": "all spellings", "anchors": ["src/data/attributes.py:Attributes.get", "src/data/schemas.py:BaseSchema.__init__"]}
{"id": "C33", "title": "Adding an extension keeps all existing attributes and adds the extension's own", "statement": "After with_extension, every previously declared attribute is still found, each attribute of the extension is found under the extension's URN and marked as an extension attribute, and adding the same (lower-case) URN again raises ValueError. (With upper-case letters in the URN the repetition is not detected.)", "quantifier": "all schemas and extensions", "why_tests_cant": "all schemas", "anchors": ["src/data/schemas.py:ResourceSchema.with_extension"]}
{"id": "C34", "title": "Well-formed data is parsed without exceptions", "statement": "schema.parse of a JSON object does not raise, provided the object has no empty-string key, no key naming one of the schema's URNs with a non-object value, 'schemas', if it is a list, is a list of strings, and no attribute is given one of the values its type cannot convert: text outside ASCII for a binary attribute, an integer beyond the floats for a decimal one, an infinite float or NaN for an integer one.", "quantifier": "all JSON objects within the stated limits", "why_tests_cant": "totality over unbounded data", "anchors": ["src/data/schemas.py:BaseSchema._process", "src/data/schemas.py:BaseSchema._process_data"]}
{"id": "C35", "title": "A wrong resource type is reported when dumping", "statement": "When a resource is dumped and carries meta.resourceType, an issue at meta.resourceType is reported exactly when the value differs from the schema's name.", "quantifier": "all resources", "why_tests_cant": "all values", "anchors": ["src/data/schemas.py:ResourceSchema.dump", "src/data/schemas.py:validate_resource_type_consistency"]}
{"id": "C36", "title": "Missing required attributes are always reported in requests", "statement": "With the default checker, a request is reported for a declared simple-position attribute exactly when the attribute is required, not ignored, and its value is null, empty or absent.", "quantifier": "all data, all schemas", "why_tests_cant": "all data", "anchors": ["src/attributes_presence.py:AttributePresenceChecker.__call__", "src/attributes_presence.py:AttributePresenceChecker._check_presence"]}
{"id": "C37", "title": "An attribute that must never be returned is always reported in responses", "statement": "For every checker, a response containing a non-empty value of an attribute with returned=never yields an issue 19 at that attribute.", "quantifier": "all checkers, data and schemas", "why_tests_cant": "all data", "anchors": ["src/attributes_presence.py:AttributePresenceChecker._check_presence"]}
{"id": "C38", "title": "Requesting attributes: only what was asked for may come back", "statement": "With an include list, a present value is accepted in a response exactly when the attribute is always returned, or is not 'never' and it, a sub-attribute of it, or its parent is listed.", "quantifier": "all include lists, data and schemas", "why_tests_cant": "all lists", "anchors": ["src/attributes_presence.py:AttributePresenceChecker._check_presence", "src/attributes_presence.py:AttributePresenceChecker._sub_attr_or_top_attr_in_attr_reps"]}
{"id": "C39", "title": "Excluding attributes: what was excluded may not come back", "statement": "With an exclude list, a present value is accepted in a response exactly when the attribute is always returned, or is not 'never' and is not listed.", "quantifier": "all exclude lists, data and schemas", "why_tests_cant": "all lists", "anchors": ["src/attributes_presence.py:AttributePresenceChecker._check_presence"]}
{"id": "C40", "title": "Requests are never blamed for carrying unrequested attributes", "statement": "In the request direction the checker reports nothing but issue 15 (missing).", "quantifier": "all checkers, data and schemas", "why_tests_cant": "all data", "anchors": ["src/attributes_presence.py:AttributePresenceChecker._check_presence"]}
{"id": "C41", "title": "Every bad attribute name in a list of requested attributes is reported", "statement": "AttributePresenceChecker.parse returns a checker exactly when every name parses; otherwise Invalid, with one issue 111 located at each bad name.", "quantifier": "all lists of strings", "why_tests_cant": "all lists", "anchors": ["src/attributes_presence.py:AttributePresenceChecker.parse"]}
{"id": "C42", "title": "Presence issues are located at declared attributes", "statement": "Every issue of a presence check is located at attr, (attr, sub) or (attr, i, sub) for a declared attribute.", "quantifier": "all data, all schemas", "why_tests_cant": "all data", "anchors": ["src/attributes_presence.py:AttributePresenceChecker.__call__"]}
{"id": "C43", "title": "A non-strict match is always decided", "statement": "Matching any filter operator with strict=False never yields MISSING_DATA, so its truth value never raises.", "quantifier": "all filters, data and schemas", "why_tests_cant": "induction over filter trees", "anchors": ["src/data/operator.py:And.match", "src/data/operator.py:Or.match", "src/data/operator.py:Not.match", "src/data/operator.py:ComplexAttributeOperator.match", "src/data/operator.py:BinaryAttributeOperator.match"]}
{"id": "C44", "title": "Strict matches are non-strict matches", "statement": "If a filter passes with strict=True and matching it with strict=False on the same data raises nothing, the latter passes too.", "quantifier": "all filters, data and schemas", "why_tests_cant": "induction over filter trees", "anchors": ["src/data/operator.py:MultiOperandLogicalOperator", "src/data/operator.py:Not.match", "src/data/operator.py:ComplexAttributeOperator.match"]}
{"id": "C45", "title": "The order of operands does not matter", "statement": "And and Or give the same status for any permutation of their operands, when no operand raises.", "quantifier": "all operand lists and permutations", "why_tests_cant": "all permutations", "anchors": ["src/data/operator.py:And.match", "src/data/operator.py:Or.match"]}
{"id": "C46", "title": "Strict matching is three-valued logic", "statement": "And, Or and Not follow Kleene's connectives over {failed, unknown (missing data), passed}, except that Not maps unknown to failed (strict) or passed (non-strict), and an operand on an undeclared attribute is neutral in And and failing in Or.", "quantifier": "all filters, data and schemas", "why_tests_cant": "induction over filter trees", "anchors": ["src/data/operator.py:And.match", "src/data/operator.py:Or.match", "src/data/operator.py:Not.match"]}
{"id": "C47", "title": "Comparing a case-insensitive string ignores case, and a case-exact one does not", "statement": "For a string attribute, eq/ne/co/sw/ew/gt/ge/lt/le on a string value give the result of the comparison on the lower-cased strings if the attribute is not case-exact and on the strings themselves otherwise; changing the case of the data or the operand does not change the first.", "quantifier": "all strings and operators", "why_tests_cant": "all strings", "anchors": ["src/data/operator.py:BinaryAttributeOperator._get_values_for_comparison"]}
{"id": "C48", "title": "eq and ne are opposite on present single values", "statement": "For a present single value of a simple attribute, ne passes exactly when eq fails, provided that a string operand of a case-insensitive attribute meets a string (otherwise both fail).", "quantifier": "all values", "why_tests_cant": "all values", "anchors": ["src/data/operator.py:Equal", "src/data/operator.py:NotEqual", "src/data/operator.py:BinaryAttributeOperator.match"]}
{"id": "C49", "title": "pr means the attribute has a value", "statement": "For a simple attribute, pr passes exactly when the value is present, not null, not an empty string and, if a list, has a truthy item; it never yields MISSING_DATA.", "quantifier": "all values", "why_tests_cant": "all values", "anchors": ["src/data/operator.py:Present.match"]}
{"id": "C50", "title": "A multi-valued attribute matches when one of its values does", "statement": "For a simple multi-valued attribute, a comparison passes on a list of present values exactly when it passes on one of its items alone (and no earlier item raises); for a complex multi-valued attribute, a sub-filter passes exactly when it passes on one of the items (strict).", "quantifier": "all lists", "why_tests_cant": "lists of any length", "anchors": ["src/data/operator.py:BinaryAttributeOperator.match", "src/data/operator.py:ComplexAttributeOperator.match"]}
{"id": "C51", "title": "Unknown attributes never match", "statement": "A single comparison, pr or complex filter on an attribute the schema does not declare yields FAILED_NO_ATTR whatever the data.", "quantifier": "all data and schemas", "why_tests_cant": "all data", "anchors": ["src/data/operator.py:BinaryAttributeOperator.match", "src/data/operator.py:Present.match", "src/data/operator.py:ComplexAttributeOperator.match"]}
{"id": "C52", "title": "Parsing a filter yields a filter or issues, never both", "statement": "Filter.parse returns Invalid exactly when the returned issues are non-empty.", "quantifier": "all strings", "why_tests_cant": "all strings", "anchors": ["src/filter.py:Filter.parse"]}
{"id": "C53", "title": "Parsing a filter never raises, except on huge or infinite numbers", "statement": "Filter.parse raises nothing but OverflowError, and that only when a comparison value denotes an infinite float.", "quantifier": "all strings", "why_tests_cant": "all strings", "anchors": ["src/filter.py:Filter.parse", "src/utils.py:parse_comparison_value"]}
{"id": "C54", "title": "Printing a filter and parsing it gives the filter back", "statement": "For every filter built from comparisons, pr, not, and, or (properly parenthesised text, plain string values without quote characters or placeholder markers, exactly representable numbers), Filter.parse of its text succeeds and returns that filter.", "quantifier": "all filter trees of any depth", "why_tests_cant": "induction over unbounded trees", "anchors": ["src/filter.py:Filter.parse", "src/filter.py:Filter._parse_operator", "src/filter.py:Filter._parsed_op_or_exp", "src/filter.py:Filter._parse_op_and_exp", "src/filter.py:Filter._parse_op_attr_exp"]}
{"id": "C55", "title": "Quoted string values are taken verbatim", "statement": "In a comparison with a double-quoted string that contains no quote character, the parsed comparison value is exactly the text between the quotes, whatever operators, brackets or spaces it contains.", "quantifier": "all attribute names, operators and string contents", "why_tests_cant": "all strings", "anchors": ["src/filter.py:Filter.parse", "src/utils.py:STRING_VALUES_REGEX", "src/utils.py:get_placeholder"]}
{"id": "C56", "title": "'and' binds tighter than 'or'", "statement": "A text of the form x1 and .. and xn or y1 and .. and ym or ... parses to the disjunction of the conjunctions.", "quantifier": "any number of operands", "why_tests_cant": "any number", "anchors": ["src/filter.py:Filter._parsed_op_or_exp", "src/filter.py:Filter._parse_op_and_exp"]}
{"id": "C57", "title": "Comparison operator names ignore letter case", "statement": "Changing the letter case of eq, ne, co, sw, ew, gt, ge, lt, le or pr in a comparison does not change the parsed filter.", "quantifier": "all comparisons", "why_tests_cant": "all spellings", "anchors": ["src/filter.py:Filter._parse_op_attr_exp"]}
{"id": "C58", "title": "Unbalanced parentheses are rejected", "statement": "A filter text without quotes in which the round brackets are not balanced is rejected with issue 100.", "quantifier": "all strings without quotes or square brackets", "why_tests_cant": "all strings", "anchors": ["src/filter.py:Filter._parse_operator"]}
{"id": "C59", "title": "A filter keeps all its parts when groups and complex attributes are mixed", "statement": "Every complex-attribute filter and every group written in the text appears in the parsed filter at its place. (Fails: the position-keyed placeholders of groups and complex attributes can collide.)", "quantifier": "all filter texts", "why_tests_cant": "collisions depend on positions", "anchors": ["src/filter.py:Filter.parse", "src/filter.py:Filter._get_parsed_group_or_complex_op"]}
{"id": "C60", "title": "Numbers, booleans and null are read as such", "statement": "parse_comparison_value maps true/false/null to the constants, quoted text to its inside, an integral number to an int and any other number to the float, and rejects everything else.", "quantifier": "all strings", "why_tests_cant": "all strings", "anchors": ["src/utils.py:parse_comparison_value"]}
{"id": "C61", "title": "A plain patch path is an attribute name", "statement": "PatchPath.parse of a text without brackets and quotes succeeds exactly when AttrRep.parse does, with that attribute and no filter.", "quantifier": "all strings", "why_tests_cant": "all strings", "anchors": ["src/data/path.py:PatchPath.parse"]}
{"id": "C62", "title": "A parsed patch path is consistent", "statement": "Every PatchPath returned by parse satisfies the constructor's invariants: with a filter the filter is a complex-attribute filter on the path's own attribute, and the trailing sub-attribute belongs to that attribute.", "quantifier": "all strings", "why_tests_cant": "all strings", "anchors": ["src/data/path.py:PatchPath.parse", "src/data/path.py:PatchPath.__init__"]}
{"id": "C63", "title": "Malformed brackets in a patch path are rejected", "statement": "A path (outside quoted text) with more than one '[' or ']', with only one of them, or with ']' before '[' gives Invalid and issue 300.", "quantifier": "all strings", "why_tests_cant": "all strings", "anchors": ["src/data/path.py:PatchPath.parse"]}
{"id": "C64", "title": "Sorting returns the same resources, in order, stably", "statement": "When sorting does not raise, the result is a permutation of the input in which the sort keys are non-decreasing (ascending) or non-increasing (descending), and resources with equal keys keep their relative order.", "quantifier": "all lists of resources", "why_tests_cant": "lists of any length", "anchors": ["src/sorter.py:Sorter.__call__", "src/sorter.py:Sorter._attr_key"]}
{"id": "C65", "title": "Resources without a value come last (first when descending)", "statement": "In an ascending sort every resource without a usable value for the attribute comes after every resource with one; in a descending sort before.", "quantifier": "all lists of resources", "why_tests_cant": "lists of any length", "anchors": ["src/sorter.py:AlwaysLastKey", "src/sorter.py:Sorter._get_key"]}
{"id": "C66", "title": "Sorting a sorted list changes nothing", "statement": "sorter(sorter(xs)) == sorter(xs); a list is accepted by the sortedness validation exactly when sorting leaves it in place.", "quantifier": "all lists of resources", "why_tests_cant": "lists of any length", "anchors": ["src/sorter.py:Sorter.__call__", "src/request_validators.py:validate_resources_sorted"]}
{"id": "C67", "title": "A patch cannot touch read-only attributes", "statement": "PatchOp never accepts without issue an operation (add, replace, or remove) whose path targets a read-only attribute, or a sub-attribute of one.", "quantifier": "all resource schemas, operations and values", "why_tests_cant": "all schemas and paths", "anchors": ["src/assets/schemas/patch_op.py:PatchOp"]}
{"id": "C68", "title": "A patch operation with an unknown target is rejected", "statement": "An operation whose path does not name a declared attribute of the resource is reported with issue 303.", "quantifier": "all paths", "why_tests_cant": "all paths", "anchors": ["src/assets/schemas/patch_op.py:PatchOp"]}
{"id": "C69", "title": "Required attributes cannot be removed", "statement": "A remove operation on a required attribute is reported with issue 306.", "quantifier": "all schemas, paths", "why_tests_cant": "all schemas", "anchors": ["src/assets/schemas/patch_op.py:PatchOp"]}
{"id": "C70", "title": "A request or response is passed on exactly when it has no issues", "statement": "For PUT, POST requests and resource responses, the returned body is not None exactly when the returned issues are empty (a POST response without a body is passed as None). The same holds for search requests, where the body passed on is the parsed one and headers and query string are unchanged.", "quantifier": "all schemas, bodies, headers and statuses", "why_tests_cant": "all inputs", "anchors": ["src/request_validators.py:SearchRequestPOST.parse_request", "src/request_validators.py:ResourceObjectPUT.parse_request", "src/request_validators.py:ResourcesPOST.parse_request", "src/request_validators.py:_dump_resource_output_body", "src/request_validators.py:Error.dump_response"]}
{"id": "C71", "title": "PUT strips read-only attributes", "statement": "After a successful PUT request, reading any plain read-only attribute of the schema from the returned body gives Missing, and all other attributes are kept.", "quantifier": "all schemas and bodies", "why_tests_cant": "all inputs", "anchors": ["src/request_validators.py:ResourceObjectPUT.parse_request"]}
{"id": "C72", "title": "POST does not ask the client for server-issued attributes", "statement": "In a POST request no issue 15 is reported for a required attribute issued by the server, and one is reported for every other required top-level attribute that is missing.", "quantifier": "all schemas and bodies", "why_tests_cant": "all inputs", "anchors": ["src/request_validators.py:ResourcesPOST.parse_request"]}
{"id": "C73", "title": "List responses have consistent counts", "statement": "A list response is accepted only if totalResults is at least the number of resources, equals it when no count was requested, and no more than count resources are present; with pagination, startIndex and itemsPerPage must be present.", "quantifier": "all list responses", "why_tests_cant": "all inputs", "anchors": ["src/request_validators.py:validate_number_of_resources", "src/request_validators.py:validate_pagination_info", "src/request_validators.py:_dump_resources_get_response"]}
{"id": "C74", "title": "Error responses carry the HTTP status they are sent with", "statement": "An error response is accepted only if its status is the decimal text of the HTTP status and the HTTP status is in the permitted range; a missing status is reported as missing.", "quantifier": "all error bodies and statuses", "why_tests_cant": "all inputs", "anchors": ["src/request_validators.py:Error.dump_response", "src/request_validators.py:validate_error_status_code", "src/request_validators.py:validate_error_status_code_consistency"]}
{"id": "C75", "title": "The Location header and meta.location agree", "statement": "A resource response with a Location header is accepted only if meta.location equals it; a POST response with a body requires the header, the others do not; any other status than the expected one (201 for POST, 200 for GET, PUT and PATCH, or 204 for PATCH) is reported.", "quantifier": "all responses", "why_tests_cant": "all inputs", "anchors": ["src/request_validators.py:_dump_resource_output_body", "src/request_validators.py:validate_resource_location_consistency", "src/request_validators.py:validate_resource_location_in_header", "src/request_validators.py:validate_status_code"]}
{"id": "C76", "title": "attributes and excludeAttributes exclude each other", "statement": "parse_requested_attributes gives issues at both parameters when both are non-empty, no checker when both are absent, and otherwise a checker for the given list with the right polarity, or issues for bad names.", "quantifier": "all query strings", "why_tests_cant": "all inputs", "anchors": ["src/request_validators.py:parse_requested_attributes"]}
{"id": "C77", "title": "Returned resources really match the requested filter", "statement": "validate_resources_filtered, when matching does not raise, reports an issue at index i exactly when the i-th resource fails the filter non-strictly.", "quantifier": "all lists of resources and filters", "why_tests_cant": "lists of any length", "anchors": ["src/request_validators.py:validate_resources_filtered"]}
{"id": "C78", "title": "Responses to DELETE and 204 PATCH responses are checked by status only", "statement": "DELETE reports an issue exactly when the status is not 204; PATCH with 204 reports one exactly when specific attributes were requested; both return no body.", "quantifier": "all statuses and checkers", "why_tests_cant": "all inputs", "anchors": ["src/request_validators.py:ResourceObjectDELETE.dump_response", "src/request_validators.py:ResourceObjectPATCH.dump_response"]}
{"id": "C79", "title": "Paging parameters are integers after parsing", "statement": "If a list query is parsed without issues, count and startIndex are integers or absent, filter is a parsed filter or absent, and the sorter orders ascending exactly when sortOrder is 'ascending' or absent.", "quantifier": "all query strings", "why_tests_cant": "all inputs", "anchors": ["src/request_validators.py:_parse_resources_get_request", "src/request_validators.py:parse_request_sorting", "src/request_validators.py:parse_request_filtering"]}
{"id": "C80", "title": "Bulk requests respect the configured maximum number of operations", "statement": "A bulk request with more operations than configured is reported and its body withheld; the bulk response is reported when more than failOnErrors operations failed.", "quantifier": "all bulk bodies", "why_tests_cant": "all inputs", "anchors": ["src/request_validators.py:BulkOperations.parse_request", "src/request_validators.py:BulkOperations.dump_response"]}
{"id": "C81", "title": "A filter in brackets makes a patch path that keeps the filter", "statement": "For every complex-attribute filter text name[filter] of the filter grammar that contains no '|' and no '&' outside quotes, PatchPath.parse gives a path to that attribute with exactly that filter; followed by .sub it gives the sub-attribute sub of the same attribute.", "quantifier": "all complex-attribute filter texts and sub-attribute names", "why_tests_cant": "texts of any length and depth", "anchors": ["src/data/path.py:PatchPath.parse"]}
{"id": "C82", "title": "Issues of a resource stand under the attribute they are about", "statement": "Whenever a schema parses or dumps an object, the issues reported below the location of a present attribute (its name, after the URN for attributes of extensions) are exactly those that the attribute itself reports for the value, and every other issue is about the schemas field.", "quantifier": "all schemas, modes and data", "why_tests_cant": "data of any size and shape", "anchors": ["src/data/schemas.py:BaseSchema._process"]}
{"id": "C83", "title": "Accepted patch operations are well-formed", "statement": "In a patch request accepted without issues every op is add, remove or replace up to letter case (or absent), an operation 'remove' has a path, and an operation 'add' has a value and, if its path has a filter, names a sub-attribute.", "quantifier": "all resource schemas and request bodies", "why_tests_cant": "requests of any size", "anchors": ["src/assets/schemas/patch_op.py:validate_operations", "src/assets/schemas/patch_op.py:PatchOp.parse"]}
{"id": "C84", "title": "Accepted patch requests keep their operations", "statement": "A patch request accepted without issues has as many operations as the input, in the same order, each with the parsed path of the input; add and replace keep op and the value as the targeted attribute parses it.", "quantifier": "all resource schemas and request bodies", "why_tests_cant": "requests of any size", "anchors": ["src/assets/schemas/patch_op.py:PatchOp.parse", "src/assets/schemas/patch_op.py:PatchOp._parse_add_or_replace_operation", "src/assets/schemas/patch_op.py:PatchOp._parse_remove_operation"]}
{"id": "C85", "title": "Accepted patch values set no read-only attributes", "statement": "In a patch request accepted without issues, the value of an add or replace operation without path parses against the resource schema without issues other than about schemas and sets no read-only attribute, and the value for a single-valued complex attribute sets none of its read-only sub-attributes.", "quantifier": "all resource schemas and request bodies", "why_tests_cant": "requests of any size", "anchors": ["src/assets/schemas/patch_op.py:PatchOp._parse_operation_value", "src/assets/schemas/patch_op.py:PatchOp._parse_update_attr_value"]}
{"id": "C86", "title": "Reading and writing a resource report only value and schema errors", "statement": "Whatever issues are reported for a resource body that is not null when it is parsed or dumped (where a resource type that does not fit may be reported besides, at that place only), each is one of: bad syntax, bad type, bad encoding, reserved word, bad URL, several primaries, value not among the allowed, unknown or missing schema URNs. In particular no missing attributes are reported by parsing itself.", "quantifier": "all resource schemas with standard processors and all bodies", "why_tests_cant": "bodies of any size and depth", "anchors": ["src/schemas.py:BaseSchema.parse", "src/data/attributes.py:Attribute.parse", "src/data/attributes.py:Complex.parse"]}
{"id": "C87", "title": "Accepted bulk requests hold operations that would be accepted on their own", "statement": "In a bulk request accepted without issues every operation has a method and a path that fits it (POST goes to a resource collection and has a bulkId, the other methods go to a member of one), the resource is known unless it is deleted, and the data of a POST, PUT or PATCH is accepted without issues by the request that the operation stands for; the data handed on is the body of that request and method, path, bulkId and version are handed on unchanged.", "quantifier": "all bulk bodies and all tables of resources", "why_tests_cant": "bodies with any number of operations", "anchors": ["src/request_validators.py:BulkOperations.parse_request", "src/assets/schemas/bulk_ops.py:validate_request_operations"]}
{"id": "C88", "title": "Accepted bulk responses explain every operation", "statement": "A bulk response accepted without issues has status 200 and, for every operation, one of the five methods, a numeric status, a bulkId for a POST, and a location that leads to a known resource (only a failed POST may lack it). An operation that failed (status 300 or more) has a response, and if that is not empty it is an error accepted on its own for that status. A successful operation with a response carries what the single response for the method, resource and location would carry; that single response is free of issues if the status is the one the method answers with (otherwise only its status is at fault, and the resource is silently dropped), and its version agrees with that of the operation. Method, bulkId, version, location and status are handed on unchanged.", "quantifier": "all bulk bodies, headers, limits and all tables of resource schemas", "why_tests_cant": "bodies with any number of operations; the interplay of two validators per operation", "anchors": ["src/request_validators.py:BulkOperations.dump_response", "src/assets/schemas/bulk_ops.py:validate_response_operations"]}
{"id": "C89", "title": "Schemas describe themselves truthfully", "statement": "For every schema, get_schema_rep raises (AttributeError) exactly when some attribute at some depth has no type. If all types have a name in schema documents, the representation is accepted by Schema().dump without issues and the result says exactly what the schema is: URN, name, description, and for every attribute in order its name, type, plurality, description, necessity, canonical values, case sensitivity (strings only), mutability, returnability, uniqueness, reference types and sub-attributes, at every depth. The representation of a schema with a decimal attribute is reported.", "quantifier": "all schemas", "why_tests_cant": "schemas with any number of attributes, nested to any depth", "anchors": ["src/data/schemas.py:get_schema_rep", "src/data/attributes.py:Attribute.to_dict", "src/data/attributes.py:ComplexAttribute.to_dict", "src/assets/schemas/schema.py:dump_attributes"]}
{"id": "C90", "title": "Accepted schema documents are consistent", "statement": "Whatever is dumped by the Schema resource without issues has attributes that are absent, null or a list of consistent descriptions: known type, mutability, returnability and uniqueness, truth values where expected, caseExact exactly for the type string, and sub-attributes only for the type complex, themselves consistent at every depth.", "quantifier": "all inputs of Schema().dump", "why_tests_cant": "documents of any size and depth", "anchors": ["src/assets/schemas/schema.py:dump_attributes", "src/assets/schemas/schema.py:attributes"]}
{"id": "C91", "title": "What was read can be written, and read again unchanged", "statement": "An object that a resource schema's parse accepts without issues is accepted by dump (which may only find that meta.resourceType names another resource), and parsing what dump returned gives, without issues, exactly the object obtained first; likewise what dump accepted is accepted by parse, and dumping the parsed object gives exactly the dumped one. Dates must survive isoformat and fromisoformat, and an extension must not reuse the name of a core attribute.", "quantifier": "all inputs of parse and dump of the schemas User (with the enterprise extension), Group, ResourceType, ServiceProviderConfig, and all schemas whose post-processors only check", "why_tests_cant": "composition of two conversions over every input; tests look at a few round trips", "anchors": ["src/data/schemas.py:BaseSchema._process", "src/data/schemas.py:ResourceSchema.dump", "src/data/attributes.py:Attribute._process", "src/data/types.py"]}
{"id": "C92", "title": "Every resource of a list response is held to what was asked for", "statement": "What a list response is told about missing, forbidden or unrequested attributes is, at the index of each resource, what that resource alone is told; an accepted list response holds only resources about which nothing is reported, and if the client asked for an order, sorting the resources leaves an equal resource at every position.", "quantifier": "all lists of resources, schemas, presence checkers and sorters", "why_tests_cant": "lists of any length, several schemas at once", "anchors": ["src/request_validators.py:validate_resources_attributes_presence", "src/request_validators.py:validate_resources_sorted", "src/request_validators.py:_dump_resources_get_response"]}
{"id": "C93", "title": "PATCH requests are handed on only when new items are complete", "statement": "A PATCH request has a body exactly when nothing is reported about it, and then the body is the parsed one; the headers are kept. If the query string and the operations are free of issues, what is reported is exactly the required parts that are missing in the items that an add or replace operation brings for a multi-valued complex attribute, whether by path or inside an object; so such a request is accepted exactly when every new item is complete. For User and Group no item can be incomplete.", "quantifier": "all resource schemas, request bodies, headers and query strings", "why_tests_cant": "requests with any number of operations and items", "anchors": ["src/request_validators.py:ResourceObjectPATCH.parse_request", "src/assets/schemas/patch_op.py:PatchOp.parse"]}
{"id": "C94", "title": "Schemas and resource types are listed in full", "statement": "Requests for the schemas or resource types are reported exactly when the query string is a dictionary with a filter, with 'not supported' at the filter and nothing else; query string and body are dropped, headers kept.", "quantifier": "all headers, bodies and query strings", "why_tests_cant": "all inputs", "anchors": ["src/request_validators.py:_ServiceProviderConfig.parse_request"]}
{"id": "C95", "title": "Search requests are read faithfully", "statement": "When a search request is accepted, the body was an object; the filter of the result is the parse of its filter, count and startIndex are integers, sortBy and the names to include or leave out are the parses of the given names, and at most one of the two lists of names is non-empty. A presence checker is added exactly when attributes are named, for exactly those names, and a sorter exactly when sortBy is given, for that name. Both lists together are reported with 30 at both and nothing else. (The sorter is always descending whatever sortOrder says, sortOrder may be any text, and excludeAttributes alone makes no presence checker.)", "quantifier": "all bodies", "why_tests_cant": "all inputs", "anchors": ["src/assets/schemas/search_request.py:SearchRequest.parse", "src/assets/schemas/search_request.py:parse_attr_rep_multi", "src/request_validators.py:SearchRequestPOST.parse_request"]}
{"id": "C96", "title": "Requests with ordinary JSON are answered, not raised at", "statement": "Parsing a PUT or POST request for users or groups (or for any schema built of the same kinds of attributes) never raises: the body is any JSON value within the limits of C34 (also null, a list, a text, a number), the query string anything whose lists of names hold texts. The same holds for reading a resource. Reading many resources (with texts in the query string, the filter may be anything) and searching (with any JSON body) raise in one case only: the filter contains a number too large to be finite.", "quantifier": "all bodies, headers and query strings within the stated limits", "why_tests_cant": "totality over unbounded data", "anchors": ["src/request_validators.py:ResourceObjectPUT.parse_request", "src/request_validators.py:ResourcesPOST.parse_request", "src/request_validators.py:ResourceObjectGET.parse_request", "src/request_validators.py:_parse_resources_get_request", "src/request_validators.py:SearchRequestPOST.parse_request"]}
{"id": "C97", "title": "Responses made from ordinary values are answered, not raised at", "statement": "Preparing the response to reading, replacing, creating or changing a user or group (or a resource of any schema built of the same kinds of attributes), to reading the service provider configuration, and the response with an error never raise: the body is any value within the limits of C34 (also null, a list, a text, a date), the status any integer, the headers none or a dictionary whose Location is a scalar, the presence checker any.", "quantifier": "all bodies, headers, statuses and presence checkers within the stated limits", "why_tests_cant": "totality over unbounded data", "anchors": ["src/request_validators.py:ResourceObjectGET.dump_response", "src/request_validators.py:ResourcesPOST.dump_response", "src/request_validators.py:ResourceObjectPATCH.dump_response", "src/request_validators.py:Error.dump_response"]}
{"id": "C98", "title": "List responses made from ordinary values are answered, not raised at", "statement": "Preparing the response to reading or searching many resources never raises, whatever the status, headers, start index, count, filter, sorter and presence checker: the body is any value within the limits of C34 (also null, a list, a text), and the resources in it are of users, groups or any schemas built of the same kinds of attributes, each within the same limits, however faulty. If the resources may be of several schemas, none of them may have a key spelled like a main URN.", "quantifier": "all bodies, statuses, headers, start indices, counts, filters, sorters and presence checkers within the stated limits", "why_tests_cant": "totality over lists of any length, filters of any depth and all sort keys", "anchors": ["src/request_validators.py:_dump_resources_get_response", "src/assets/schemas/list_response.py:ListResponse.dump", "src/request_validators.py:skip_if_bad_data", "src/request_validators.py:validate_resources_filtered", "src/request_validators.py:validate_resources_sorted", "src/request_validators.py:validate_resources_attributes_presence"]}
{"id": "C99", "title": "Accepted filters are well-formed", "statement": "Whatever text is given, a filter that is accepted, and the filter in a PATCH path that is accepted, is well-formed: every operand of 'and' and 'or' and every part of a complex filter is there and well-formed, 'and' and 'or' have operands, every attribute name consists of valid names, and every value is a text, a number, a boolean or null.", "quantifier": "all texts", "why_tests_cant": "texts of any length and nesting", "anchors": ["src/filter.py:Filter.parse", "src/data/path.py:PatchPath.parse"]}
{"id": "C100", "title": "Filters are equal exactly when they are written alike, and equal filters select the same resources", "statement": "Comparing two filters never raises. It says 'equal' exactly when both have the same structure, the same operators, the same attribute names (schema in lower case, attribute and sub-attribute as shown) and equal values. On accepted filters this is an equivalence relation, and two equal filters give the same verdict, or raise the same exception, on every resource, whatever the schema and strictness. Two PATCH paths are equal exactly when their attributes, filters and sub-attributes are.", "quantifier": "all pairs of filters, all pairs of paths, all data", "why_tests_cant": "filters of any depth", "anchors": ["src/filter.py:Filter.__eq__", "src/filter.py:Filter.to_dict", "src/data/path.py:PatchPath.__eq__", "src/filter.py:Filter.__call__"]}
{"id": "C101", "title": "A configuration is made exactly from sensible settings", "statement": "create_service_provider_config returns exactly when every option is left out, empty, or a dictionary with known settings only, every authentication scheme is a dictionary with the five fields, and the limits of bulk operations and filtering are given (and not zero) if these are supported; the result then says what the arguments say and has False or None for the rest. Otherwise it raises TypeError or ValueError, and ValueError if only limits are missing. So a configuration that supports bulk operations or filtering always has the limits.", "quantifier": "all arguments", "why_tests_cant": "all values under all keys, any number of schemes", "anchors": ["src/assets/config.py:create_service_provider_config", "src/assets/config.py:_BulkOption", "src/assets/config.py:_FilterOption"]}
{"id": "C102", "title": "Error messages are always produced, complete and telling", "statement": "Whatever values an error is about, making it never raises; its message is the documented text with the values put in, every value is shown in it, and its context holds the values under their names; making one directly with a context that lacks a name the message shows raises KeyError. Two errors with the same message have the same code, so a message identifies the kind of error; an error equals exactly its message and the errors with the same message.", "quantifier": "all kinds of errors and all values they are about", "why_tests_cant": "values are arbitrary texts, also ones that look like parts of messages or replacement fields", "anchors": ["src/error.py:ValidationError"]}
{"id": "C103", "title": "When patch requests are answered and when they raise", "statement": "Reading the document of a patch request for users, groups or any schema built of the same kinds of attributes does not raise for any JSON value that is no object, and for any ordinary object that has something for Operations, as long as each operation among them has a path or, if it has none, says 'add' or 'replace' in these letters with an ordinary object as value, and no single complex attribute with a read-only part is set to null. The request as a whole, once its document is accepted, raises TypeError exactly when an operation sets a multi-valued complex attribute to null; otherwise it is answered.", "quantifier": "all bodies, headers and query strings within the stated limits", "why_tests_cant": "any number of operations with any paths, filters and values", "anchors": ["src/assets/schemas/patch_op.py:PatchOp.parse", "src/request_validators.py:ResourceObjectPATCH.parse_request", "src/request_validators.py:ResourceObjectPATCH._check_complex_sub_attrs_presence"]}
{"id": "C104", "title": "When bulk requests are answered and when they raise", "statement": "Parsing a bulk request whose body is an ordinary object with a list under Operations, with a limit for the number of operations, is answered exactly when none of the operations whose path is followed has a method other than GET, POST, PUT, PATCH and DELETE in these letters, a path without slash, or data for a known kind of resources that makes the parser of the single request raise. In all other cases it raises: for bodies that are no objects, without a list of operations, and (TypeError) without a limit. A request whose operations all have one of the methods, a path with a slash and data the single request copes with is therefore answered; data for creating or replacing users and groups may be any ordinary JSON object.", "quantifier": "all bodies within the stated limits, all known schemas, limits, headers and query strings", "why_tests_cant": "any number of operations, in any combination of faults", "anchors": ["src/request_validators.py:BulkOperations.parse_request", "src/assets/schemas/bulk_ops.py"]}
{"id": "C105", "title": "When bulk responses are answered and when they raise", "statement": "For resources as users and groups are declared, dumping a bulk response whose body is an ordinary object with a list under Operations is answered exactly when none of the operations has a location next to a method that is not GET, POST, PUT, PATCH or DELETE in these letters, a response to a deletion below status 300 with a location, a response to a failure (status 300 and above) that makes the dumper of errors raise, or a response to a success at a location that makes the dumper of the single response raise for the schema the location leads to (the last one registered when it leads to none). An ordinary object without a list under Operations is answered with issues and without body; a body that is no object raises. A response whose operations have one of the five methods, nothing for deletions, an ordinary error for failures and an ordinary resource of the right kind for successes is therefore always answered.", "quantifier": "all bodies within the stated limits, all registered schemas of the stated kind, status codes, headers and limits for errors", "why_tests_cant": "any number of operations, in any combination of faults", "anchors": ["src/request_validators.py:BulkOperations.dump_response", "src/assets/schemas/bulk_ops.py"]}
{"id": "C106", "title": "Collections of validation issues influence each other only where one is a part of the other", "statement": "In any program that makes collections of validation issues, adds to them, merges them and takes parts of them with get and pop, a step changes what is seen of a collection only if it works on this collection, on one it shares parts with (because one was taken from the other, or both from the same one by get or pop), or merges this collection into another; this holds whatever the steps raised before. The argument of a merge keeps its issues, but afterwards blocks at each of its locations. On collections that share nothing, new, add, merge, get and pop do exactly what they do on independent values; add and merge raise KeyError exactly when a part taken with get lacks an entry they need. What is added to a part just taken, at a location it has, appears in the whole, and the other way round; what is added to the whole at a new location does not appear in the parts taken before.", "quantifier": "all programs of any length over any number of collections", "why_tests_cant": "histories of any length, any pattern of sharing, also after exceptions", "anchors": ["src/error.py:ValidationIssues"]}
{"id": "C107", "title": "Filters that fit a schema always give a verdict, and filtered lists are checked in full", "statement": "Applied to a resource whose attributes are absent, null or of the declared types, a filter gives a verdict, without raising, if it fits the schema: names before a colon are not names of attributes, sub-attributes are asked for of complex or single-valued attributes only, presence is not asked for of a multi-valued complex attribute, dates are compared with dates and for the order with dates of the same kind (with or without offset), and other orders and searches in text compare text with text or numbers with numbers. What a schema writes without issues is such a resource. Therefore every resource in an accepted list response to a request with a fitting filter matches the filter, and otherwise an issue is reported at the index of exactly the resources that do not match. Each condition is needed: for a filter that raises for one resource, resources that do not match are accepted.", "quantifier": "all fitting filters, all resources of any schema built of the same kinds of attributes as users and groups, all list responses within the stated limits", "why_tests_cant": "filters of any depth and lists of any length", "anchors": ["src/filter.py:Filter.__call__", "src/data/operator.py", "src/request_validators.py:validate_resources_filtered", "src/request_validators.py:ServerRootResourceGET"]}
{"id": "C108", "title": "Containers leave the caller's data alone and share nothing with it, up to stated exceptions", "statement": "Whatever a program does with containers of data (builds them from dictionaries, reads, writes and deletes attributes, converts them back with to_dict), also when methods raise half-way: a list or dictionary of the caller that no container holds as the value of an attribute, and that is not handed over by a write, never changes; building, reading and converting back change no object at all. A container built from a document without repeated parts, and the dictionary it is converted back to, share no object with the document or each other, unless a list is an item of a list. On such objects construction, reading, writing, deleting and converting back do exactly what they do on independent values, with the same exceptions, and any history of writes and deletions ends as the same history on values while the document keeps its value. The exceptions: a list written to a container is not copied, and later writes of sub-attributes extend it; what reading hands out is the part itself; a container made from a container shares all its content with it; lists inside lists stay shared.", "quantifier": "all programs of any length over any number of lists, dictionaries and containers, all documents without repeated parts, all histories of writes and deletions", "why_tests_cant": "histories of any length, any pattern of sharing, also after exceptions", "anchors": ["src/data/container.py:SCIMDataContainer"]}
{"id": "C109", "title": "Reading or writing a resource depends only on what the body holds for the declared attributes", "statement": "Two bodies that hold the same for each declared attribute (and sub-attribute, at any depth) are parsed and dumped with the same result: the same object, the same issues, or the same exception. In particular neither the spelling (letter case) of names nor the order of the entries matters, on any level, and an attribute that is not declared does not matter, wherever it stands and whatever it holds. Requests that create or replace a resource and responses with a resource are answered alike. Attributes are processed apart from each other: what comes out for one attribute, and what is reported about it, depends on what the body holds for this attribute only. Conditions: within one object names are distinct up to letter case and not empty, and what stands under a schema URN is an object; without them the claims are false (duplicates: the last one counts; an entry with the empty name hides the sub-attributes next to it).", "quantifier": "all schemas whose attributes are declared with a type (users and groups among them), all pairs of bodies, parsing and dumping", "why_tests_cant": "pairs of documents of any size and depth", "anchors": ["src/data/schemas.py:BaseSchema.parse", "src/data/schemas.py:BaseSchema.dump", "src/data/attributes.py:Attribute", "src/data/attributes.py:ComplexAttribute", "src/data/container.py:SCIMDataContainer"]}
{"id": "C110", "title": "A query string handed over again: what requests leave in the caller's dictionary", "statement": "Request validators write what they make of the query string into the caller's dictionary, also when they raise half-way. In any history of requests with the same dictionary: only the entries filter, sorter, presence_checker, count and startIndex ever change; requests about one resource (GET, PUT, POST, PATCH) are answered as if they came first; list requests are so after any requests but list requests; a list request repeated after the caller restored the filter gives the same issues or exception and the same entries. But after a list request that did not raise, with or without a filter, accepted or not, every later list request with the dictionary is answered with a complaint about the type of the filter, the filter is lost also from the request data handed out before (it is the same dictionary), and requests for the list of schemas or of resource types are rejected.", "quantifier": "all dictionaries, all histories of requests of all kinds, of any length", "why_tests_cant": "histories of any length, any entries, also after exceptions", "anchors": ["src/request_validators.py:_parse_resources_get_request", "src/request_validators.py:parse_requested_attributes", "src/request_validators.py:ResourceObjectGET.parse_request", "src/request_validators.py:_ServiceProviderConfig.parse_request"]}
{"id": "C111", "title": "The full report shows every error with its message and context, and collections with messages behave like those without", "statement": "to_dict(msg, ctx) has, at the nested path given by the string form of each location, one item per error recorded there, in order, with its code, with its message exactly when msg is set and with its context exactly when ctx is set; the flags change nothing else in the report, and it raises exactly when the report without them does (which needs a location part '_errors'). Two errors shown with the same message have the same code. Issue collections holding whole errors, which are compared by their messages, are changed by add, merge, get and pop exactly like collections holding code and message only, so the properties C12 to C17 hold for them.", "quantifier": "all issue collections made by any history of add, merge, get and pop from any errors", "why_tests_cant": "all histories, messages with arbitrary texts in them", "anchors": ["src/error.py:ValidationIssues", "src/error.py:ValidationError"]}
{"id": "C112", "title": "A request to create or replace a resource is accepted exactly when its document is a valid resource", "statement": "For an ordinary JSON body and a query string that gives attribute names as texts, creating and replacing a resource are always answered, and without any issue exactly when (1) the query string does not name attributes both to include and to leave out and all its names are well-formed, (2) the body is an object, (3) what it holds for each declared attribute is null or of the attribute's type: lists for multi-valued attributes, objects with valid sub-attributes for complex ones, at most one of the items primary, no identifier containing bulkId, canonical values where they are enforced, (4) the listed schemas, if any, are all known and contain the schema of the resource and every extension that is used, and (5) every required attribute is given: to create a resource all but those the server issues, to replace one all. The words of (1) to (5) speak about the document only. The schemas of users and groups are covered.", "quantifier": "all well-formed schemas with usual attributes (users and groups among them), all ordinary JSON bodies, all headers and query strings of that shape", "why_tests_cant": "all documents: neither a wrongly accepted nor a wrongly rejected one can be found by trying some", "anchors": ["src/request_validators.py:ResourcesPOST.parse_request", "src/request_validators.py:ResourceObjectPUT.parse_request", "src/data/schemas.py:BaseSchema.parse", "src/data/attributes.py:Attribute.parse", "src/attributes_presence.py:AttributePresenceChecker"]}
{"id": "C113", "title": "A response with a resource is accepted exactly when it may be sent", "statement": "For an ordinary body (dates as date objects) and headers whose Location is a plain value, the responses that read, replace, change or create a resource are always answered, and without any issue exactly when (1) the status is the expected one: 200, or 201 after creating, (2) after creating, the header Location is there, (3) the body is an object holding acceptable values only and the right list of schemas, (4) meta.resourceType, if the body has it, is the name of the resource, (5) every required attribute is given in all its places, unless other attributes were requested, (6) no attribute is shown that is never returned, or that is not always returned and was left out or not among the requested ones nor related to them, and (7) the header Location, if there is one, equals meta.location of the body. Also accepted are: after creating, a response without a body; after changing, status 204 unless attributes were asked for. The words speak about the response only. Users and groups are covered.", "quantifier": "all well-formed resource schemas with usual attributes (users and groups among them), all ordinary bodies, statuses, headers and sets of requested or excluded attributes", "why_tests_cant": "all documents and all sets of requested attributes: neither a wrongly sent nor a wrongly withheld response can be found by trying some", "anchors": ["src/request_validators.py:_dump_resource_output_body", "src/request_validators.py:ResourceObjectGET.dump_response", "src/request_validators.py:ResourceObjectPUT.dump_response", "src/request_validators.py:ResourcesPOST.dump_response", "src/request_validators.py:ResourceObjectPATCH.dump_response", "src/data/schemas.py:ResourceSchema.dump", "src/attributes_presence.py:AttributePresenceChecker"]}
{"id": "C114", "title": "An error response is accepted exactly when it is an error document with its own status; the predefined errors lack their schemas", "statement": "For an ordinary body, an error response is always answered, and without any issue exactly when the status lies in 200..599 and the body is an object that lists the error schema and no other, whose status is the status of the response in decimal digits, and whose scimType and detail are texts, null or absent. Hence each of the ten predefined errors is refused as it stands, with every status, because it lists no schema; with the list of schemas added it is accepted with status 400 and with no other.", "quantifier": "all ordinary bodies, statuses and headers; all ten predefined errors", "why_tests_cant": "all documents and statuses; the predefined errors are never sent through the validator by the code", "anchors": ["src/request_validators.py:Error.dump_response", "src/assets/scim_error.py", "src/assets/schemas/error.py:Error"]}
{"id": "C115", "title": "A list response is accepted exactly when it is a list document for the request whose resources may each be sent", "statement": "For an ordinary body, a list response is always answered. Without filter and order it has no issue exactly when the status is 200 and the body is an object that lists the list schema and no other; whose Resources are a list (or absent); whose totalResults is a whole number no smaller than the number of resources, and equal to it when no count was asked for; with no more resources than were asked for; with startIndex and itemsPerPage given when a positive count was asked for and there are more resources in total; whose startIndex, unless null or zero, is not after the one asked for; whose itemsPerPage, unless null or without Resources, is the number of resources; and whose every resource is an object that may be sent (C113) as a resource of the only schema, or of the first schema that knows all URNs it lists. With a filter that fits the schemas the same holds, and every resource must pass the filter; with an order, plain keys and distinct resources, the resources must stand in the order.", "quantifier": "all ordinary bodies, statuses, start positions and counts, presence requests, non-empty lists of listable proper resource schemas, well-typed filters, sorters", "why_tests_cant": "all documents, all numbers of resources, all schemas", "anchors": ["src/request_validators.py:_dump_resources_get_response", "src/request_validators.py:validate_resources_attributes_presence", "src/request_validators.py:validate_number_of_resources", "src/request_validators.py:validate_pagination_info", "src/assets/schemas/list_response.py:ListResponse"]}
{"id": "C116", "title": "A search, or a request for a list, is accepted exactly when each of its parts is properly written", "statement": "A search with an ordinary body is answered without issues exactly when the body is an object in which: the schemas listed, if any, are the schema of searches; the attributes to include and those to leave out are lists of properly written names, one of them empty; the filter is a text that is read as a filter; the attribute to sort by is a properly written name and the order any text; startIndex and count are whole numbers. Every part may be absent or null. A GET for a list, whose names are given as texts or lists of texts, is answered without issues exactly when the query string is an object whose filter is a text that is read as a filter, whose sortBy is a properly written name, whose names of attributes are properly written and not given both to include and to leave out, and whose count and startIndex are taken by Python's int.", "quantifier": "all ordinary bodies of searches; all query strings whose names are texts or lists of texts; all headers", "why_tests_cant": "all documents, all names, all filters", "anchors": ["src/request_validators.py:SearchRequestPOST.parse_request", "src/request_validators.py:_parse_resources_get_request", "src/request_validators.py:parse_requested_attributes", "src/request_validators.py:parse_request_sorting", "src/request_validators.py:parse_request_filtering", "src/assets/schemas/search_request.py:SearchRequest"]}
{"id": "C117", "title": "A patch document is accepted exactly when each operation can be done to resources of the schema", "statement": "For users, groups and every schema of standard attributes with one extension at most: a patch document that can be looked at (C103) is accepted without issues exactly when it is an object in which the schemas listed, if any, are the schema of patch requests, and Operations is a list of objects of which each is a good operation. In a good operation op is one of the three words in any spelling, null or absent; add has a value that is not null, and no filter without an attribute behind it. If op is add or replace in these very letters, then either there is a path: it points at a declared attribute that can be changed, the value is one that attribute accepts, and an object for a single complex attribute has nothing for its read-only parts; or there is none: the value is an object whose values are acceptable to the attributes, and which has nothing for read-only attributes or parts. In every other case there is a path, and what it points at is declared, can be changed and is not required, though a required complex attribute can be removed as a whole.", "quantifier": "all schemas of standard attributes; all patch documents that can be looked at", "why_tests_cant": "all documents, any number of operations, all paths and values", "anchors": ["src/assets/schemas/patch_op.py:PatchOp.parse", "src/assets/schemas/patch_op.py:PatchOp._parse_add_or_replace_operation", "src/assets/schemas/patch_op.py:PatchOp._parse_operation_value", "src/assets/schemas/patch_op.py:PatchOp._parse_update_attr_value", "src/assets/schemas/patch_op.py:PatchOp._parse_remove_operation", "src/assets/schemas/patch_op.py:validate_operations"]}
{"id": "C118", "title": "A patch request is accepted by the endpoint exactly when its query is fine and its body is complete", "statement": "For users, groups and every schema of standard attributes with one extension at most and no required parts of lists of objects: a patch request whose body can be looked at (C103) is accepted by the endpoint without issues exactly when the query string is fine (C112) and the body is a patch document as in C117 that is complete: it lists the schema of patch requests at least once, it has an operation at least, and no add or replace gives null for an attribute whose values are lists of objects, neither at a path nor in an object without path. A body that is a patch document raises TypeError exactly when one of its operations does give such a null, whatever else the request lacks.", "quantifier": "all schemas of standard attributes; all bodies that can be looked at; all query strings; all headers", "why_tests_cant": "all documents, any number of operations, all paths and values", "anchors": ["src/request_validators.py:ResourceObjectPATCH.parse_request", "src/assets/schemas/patch_op.py:PatchOp.parse"]}
{"id": "C119", "title": "The operations of a patch request are judged one by one", "statement": "For users, groups and every schema as in C118: a patch request with operations is accepted by the endpoint exactly when each of its operations is accepted in a request of its own, with the same schemas and query string and any headers. So the order of the operations, repeating some and leaving some out (but not all) do not matter: a request all of whose operations are among those of an accepted request is accepted.", "quantifier": "all schemas as in C118; all bodies that can be looked at; all query strings; all headers", "why_tests_cant": "all documents, any number of operations, all orders and selections", "anchors": ["src/request_validators.py:ResourceObjectPATCH.parse_request", "src/assets/schemas/patch_op.py:PatchOp.parse"]}
