"""Writes properties.jsonl.  Kept in the repository so that the wording lives in one place."""
import json, pathlib
P = []
def p(id, title, statement, quantifier, why, anchors):
    P.append(dict(id=id, title=title, statement=statement, quantifier=quantifier,
                  why_tests_cant=why, anchors=anchors))
C="src/data/container.py"; E="src/error.py"; T="src/data/type.py"; A="src/data/attributes.py"
S="src/data/schemas.py"; O="src/data/operator.py"; F="src/filter.py"; PP="src/data/path.py"
SO="src/sorter.py"; PR="src/attributes_presence.py"; V="src/request_validators.py"; U="src/utils.py"
PO="src/assets/schemas/patch_op.py"; LR="src/assets/schemas/list_response.py"; BO="src/assets/schemas/bulk_ops.py"
SR="src/assets/schemas/search_request.py"; ER="src/assets/schemas/error.py"

# ---------------------------------------------------------------- attribute names
p("C01","Attribute names are parsed by the documented grammar, and printing undoes parsing",
  "AttrRep.parse(s) succeeds exactly when s is [schema ':'] attr ['.' sub] with attr a run of word characters (or '$ref' as the whole attribute part), sub a run of word characters and schema a ':'-separated list of non-empty runs of word characters, '.' and '-'; the returned schema/attr/sub_attr are those three parts, and repr of the result is s again.",
  "every string s", "the set of strings is infinite and the regular expression backtracks over ':' and '.'; tests only sample a few names",
  [f"{C}:AttrRep.parse",f"{C}:AttrRep.__init__",f"{C}:AttrRep.__repr__"])
p("C02","Attribute-name comparison ignores letter case, and ignores the schema when one side has none",
  "a == b holds exactly when the attr parts and sub_attr parts are equal up to letter case and the schemas are equal up to letter case or one of them is absent; it is reflexive and symmetric, and transitive among names that all carry a schema (it is not transitive in general).",
  "all attribute names a, b, c", "equivalence laws quantify over all pairs and triples of names",
  [f"{C}:AttrRep.__eq__",f"{C}:AttrRep.top_level_equals"])
# ---------------------------------------------------------------- container
p("C03","Reading an attribute returns the value last written, whatever letter case is used",
  "After container[a] = v for a plain (non-extension, no sub-attribute) attribute a, container[b] returns v for every b that has the same attr up to letter case, and no schema that names a key of the container.",
  "all containers reachable by any history of writes, all attribute spellings, all values","quantifies over every container state and every spelling of a name",
  [f"{C}:SCIMDataContainer.__setitem__",f"{C}:SCIMDataContainer.__getitem__"])
p("C04","Writing or deleting one attribute does not disturb the others",
  "After container[a] = v or del container[a] for a plain attribute a, reading any attribute whose name differs from a (ignoring case) and whose schema does not name a key of the container gives exactly what it gave before.",
  "all containers, all pairs of differently named attributes","a frame condition over all states and all other keys",
  [f"{C}:SCIMDataContainer.__setitem__",f"{C}:SCIMDataContainer.__delitem__",f"{C}:SCIMDataContainer.__getitem__"])
p("C05","Sub-attributes of a complex attribute can be written and read back without losing siblings",
  "After container['a.s'] = v (v not a list) on a container where a is absent or is itself a container, container['a.s'] returns v, and container['a.t'] is unchanged for every other sub-attribute t; the same holds item by item when a list is written to a multi-valued complex attribute that is absent.",
  "all containers, attributes, sub-attributes and values","quantifies over all nested states",
  [f"{C}:SCIMDataContainer.__setitem__",f"{C}:SCIMDataContainer._can_assign_to_complex"])
p("C06","Extension attributes live under their own schema and never clash with core attributes",
  "Writing an attribute of an extension stores it under the extension's URN: it is read back by its qualified name, and the core attribute of the same name keeps its value.",
  "all containers and all extension attributes","all states, all names; unit tests use one extension",
  [f"{C}:SCIMDataContainer.__setitem__",f"{C}:SCIMDataContainer.__getitem__"])
p("C07","A deleted attribute is gone",
  "After del container[a] for a plain attribute a, container[b] is Missing for every spelling b of a; deleting an absent attribute changes nothing and does not raise.",
  "all containers built from dictionaries or by writes, all attribute names","all states and spellings",
  [f"{C}:SCIMDataContainer.__delitem__"])
p("C08","Turning a dictionary into a container and back loses nothing",
  "SCIMDataContainer(d).to_dict() == d for every JSON-like dictionary d with string keys, at any nesting depth (objects nested in lists one level deep).",
  "all JSON objects of any depth and size","structural induction over unbounded nesting",
  [f"{C}:SCIMDataContainer.__init__",f"{C}:SCIMDataContainer.to_dict"])
p("C09","Attribute lookup is case-insensitive",
  "For a container built from a dictionary d, reading name n returns the (container form of the) value of the last key of d equal to n up to letter case, and Missing when there is none; two spellings of the same name always read the same value.",
  "all dictionaries and all names","all dictionaries, including those with keys differing only in case",
  [f"{C}:SCIMDataContainer.__init__",f"{C}:SCIMDataContainer.__getitem__"])
p("C10","Container equality is the subset test it implements, not an equivalence",
  "c == d holds exactly when every key of c, read from d, gives an equal value; in particular it is reflexive for containers whose keys (at every level) are plain attribute names with no two equal up to case and whose values contain no NaN, the empty container equals every container, and equality is not symmetric.",
  "all containers whose keys are plain attribute names","laws over all pairs of containers",
  [f"{C}:SCIMDataContainer.__eq__"])
p("C11","Reading a plain attribute never raises",
  "container[a] returns a value or Missing (it does not raise) for every plain attribute a, for every container obtained from a JSON object that has no empty-string key; a sub-attribute of an absent attribute, or of a value that is neither an object nor a list, is Missing.",
  "all JSON objects and attribute names","totality over all data",
  [f"{C}:SCIMDataContainer.__getitem__"])
# ---------------------------------------------------------------- issues
p("C12","Merging never loses or invents an issue",
  "After issues.merge(other, location), the errors reported at any location l are those already there followed by those other reports at l with the prefix location removed; has_issues(l) is true exactly when it was true before or other has an issue at a matching place.",
  "all issue collections and locations","all histories of add and merge",
  [f"{E}:ValidationIssues.merge",f"{E}:ValidationIssues.has_issues"])
p("C13","A blocking issue blocks its location and everything below it, and nothing else",
  "For a collection built by add only, can_proceed(l) is false exactly when some issue was added with proceed=False at a prefix of l.",
  "all histories of add, all locations","all histories",
  [f"{E}:ValidationIssues.add",f"{E}:ValidationIssues.can_proceed"])
p("C14","Merging preserves which locations are blocked",
  "After merge(other, location), a location that was blocked stays blocked, every location blocked in other is blocked below the prefix, and a location is newly blocked only by an issue present in other. (Non-blocking issues of other are expected not to block; the implementation makes them block.)",
  "all issue collections and locations","all histories of add and merge",
  [f"{E}:ValidationIssues.merge",f"{E}:ValidationIssues.can_proceed"])
p("C15","The issue report lists every error at its own location",
  "to_dict() contains, at the nested path given by the string form of each location, exactly the codes of the errors recorded for that location, in order, and no '_errors' entry anywhere else, provided no two locations have the same string form and no location part is the string '_errors'.",
  "all issue collections","all shapes of nested locations",
  [f"{E}:ValidationIssues.to_dict"])
p("C16","Popping a code removes that code from that location",
  "After pop(location, code) no issue with that code remains at the location, issues of other codes and other locations are untouched. (Fails when two issues with the code are adjacent.)",
  "all issue collections, locations and codes","list mutation during iteration depends on arrangement",
  [f"{E}:ValidationIssues.pop"])
p("C17","Looking at a location shows exactly the issues below it",
  "get(location) contains an issue at l exactly when the original contains it at location+l.",
  "all issue collections and locations","all shapes",
  [f"{E}:ValidationIssues.get"])
# ---------------------------------------------------------------- types
p("C18","Binary accepts exactly canonical base64",
  "Binary.parse and Binary.dump accept an ASCII string exactly when it is the base64 encoding (with padding, no other characters) of some byte string, and return it unchanged.",
  "all ASCII strings","infinite set of strings; needs the decode/encode algebra",
  [f"{T}:Binary._validate_encoding",f"{T}:Binary.parse",f"{T}:Binary.dump"])
p("C19","A type parser either returns a value of its type and no issue, or Invalid and a blocking issue",
  "For every attribute type and every input, parse and dump (when they do not raise) return Invalid together with at least one issue that blocks, or a value of the type's result type and no issues.",
  "all types and all input values","all values",
  [f"{T}:AttributeType.parse",f"{T}:AttributeType.dump"])
p("C20","Dumping and parsing a value are inverse",
  "For every type, if dump(v) succeeds with w and isoformat/fromisoformat are inverse, then parse(w) succeeds with v (for booleans, strings, references, binaries, dates, integers and decimals).",
  "all types and values","all values",
  [f"{T}:DateTime.parse",f"{T}:DateTime.dump",f"{T}:Integer.parse",f"{T}:Decimal.dump"])
p("C21","Integers may be written as integral floats, and nothing else is coerced",
  "Integer.parse accepts an int (or bool), or a finite float with no fractional part, which becomes that int; Decimal.parse accepts a float or an int, which becomes the nearest float; every other input is rejected with a type issue.",
  "all values","all numbers",
  [f"{T}:Integer.parse",f"{T}:Decimal.parse"])
p("C22","Type parsers raise only on the inputs listed",
  "parse and dump never raise, except Integer on infinities (OverflowError) and NaN (ValueError), Decimal on integers too large for a float (OverflowError) and Binary on non-ASCII text (UnicodeEncodeError).",
  "all types and all values","totality over all values",
  [f"{T}:Integer.parse",f"{T}:Decimal.parse",f"{T}:Binary._validate_encoding"])
# ---------------------------------------------------------------- attributes
p("C23","Multi-valued attributes keep their items in place",
  "Parsing or dumping a non-list for a multi-valued attribute gives Invalid and a blocking issue; for a list of n items, without post-processors, the result is a list of n items whose i-th element is the parse of the i-th input, and issues of item i are reported under index i.",
  "all simple multi-valued attributes and all lists","lists of any length",
  [f"{A}:Attribute._process"])
p("C24","Enforced canonical values are really enforced",
  "When an attribute enforces canonical values, a parsed value is returned without issue only if it is one of them (ignoring case unless the attribute is case-exact); otherwise the value becomes Invalid and an issue is reported at its place.",
  "all attributes, canonical value lists and inputs","all values",
  [f"{A}:Attribute._process",f"{A}:Attribute._is_canonical"])
p("C25","null is always accepted and left alone",
  "parse(None) and dump(None) return None with no issues for every attribute, simple or complex.",
  "all attributes","all attributes",
  [f"{A}:Attribute._process",f"{A}:ComplexAttribute._process_complex"])
p("C26","More than one primary item is always reported, and one or none never is",
  "validate_single_primary_value reports an issue exactly when at least two items have primary equal to true, and returns the items unchanged.",
  "all lists of items","lists of any length",
  [f"{A}:validate_single_primary_value"])
p("C27","Parsed complex values contain declared sub-attributes only",
  "For a complex attribute without post-processors, every key of a parsed value is a declared sub-attribute, present exactly when the input has it, and holding the parse of the input's value; every issue is located under a declared sub-attribute (or item index and sub-attribute).",
  "all complex attributes and all inputs","all inputs with arbitrary extra keys",
  [f"{A}:ComplexAttribute._process_complex"])
p("C28","A resource id never contains the reserved word bulkId",
  "If parsing or dumping an id succeeds without issues, the returned string does not contain 'bulkId'; if the string contains it the result is Invalid with an issue.",
  "all strings","all strings",
  [f"{S}:bulk_id_validator",f"{S}:id_"])
# ---------------------------------------------------------------- schemas
p("C29","Parsed resources contain declared attributes only",
  "Every key of the container returned by schema.parse or schema.dump is the name of a declared top-level attribute of the schema or the URN of one of its extensions, and every key inside an extension is a declared attribute of that extension; undeclared input is dropped.",
  "all schemas and all inputs","arbitrary extra input keys",
  [f"{S}:BaseSchema._process_data"])
p("C30","Bodies that are not objects are rejected",
  "schema.parse/dump of None, a list, a string, a number or a boolean returns Invalid with one blocking issue (15 for None, 2 otherwise).",
  "all schemas and all non-object values","all values",
  [f"{S}:BaseSchema._process"])
p("C31","The 'schemas' field is checked exactly",
  "validate_schemas_field reports an unknown schema exactly when some listed schema is not known (once, however many there are), a missing main schema exactly when the main schema is not listed, and a missing extension for exactly the known extension keys present in the data but not listed; comparisons ignore case.",
  "all data, all lists of schemas","all lists",
  [f"{S}:validate_schemas_field"])
p("C32","Attributes of a schema are found by any spelling of their name",
  "schema.attrs.get(rep) finds the declared attribute for every spelling of its name, with or without the schema prefix, and returns nothing for undeclared names.",
  "all schemas and names","all spellings",
  [f"{A}:Attributes.get",f"{S}:BaseSchema.__init__"])
p("C33","Adding an extension keeps all existing attributes and adds the extension's own",
  "After with_extension, every previously declared attribute is still found, each attribute of the extension is found under the extension's URN and marked as an extension attribute, and adding the same (lower-case) URN again raises ValueError. (With upper-case letters in the URN the repetition is not detected.)",
  "all schemas and extensions","all schemas",
  [f"{S}:ResourceSchema.with_extension"])
p("C34","Well-formed data is parsed without exceptions",
  "schema.parse of a JSON object does not raise, provided the object has no empty-string key, no key naming one of the schema's URNs with a non-object value, 'schemas', if it is a list, is a list of strings, and no attribute is given one of the values its type cannot convert: text outside ASCII for a binary attribute, an integer beyond the floats for a decimal one, an infinite float or NaN for an integer one.",
  "all JSON objects within the stated limits","totality over unbounded data",
  [f"{S}:BaseSchema._process",f"{S}:BaseSchema._process_data"])
p("C35","A wrong resource type is reported when dumping",
  "When a resource is dumped and carries meta.resourceType, an issue at meta.resourceType is reported exactly when the value differs from the schema's name.",
  "all resources","all values",
  [f"{S}:ResourceSchema.dump",f"{S}:validate_resource_type_consistency"])
# ---------------------------------------------------------------- presence
p("C36","Missing required attributes are always reported in requests",
  "With the default checker, a request is reported for a declared simple-position attribute exactly when the attribute is required, not ignored, and its value is null, empty or absent.",
  "all data, all schemas","all data",
  [f"{PR}:AttributePresenceChecker.__call__",f"{PR}:AttributePresenceChecker._check_presence"])
p("C37","An attribute that must never be returned is always reported in responses",
  "For every checker, a response containing a non-empty value of an attribute with returned=never yields an issue 19 at that attribute.",
  "all checkers, data and schemas","all data",
  [f"{PR}:AttributePresenceChecker._check_presence"])
p("C38","Requesting attributes: only what was asked for may come back",
  "With an include list, a present value is accepted in a response exactly when the attribute is always returned, or is not 'never' and it, a sub-attribute of it, or its parent is listed.",
  "all include lists, data and schemas","all lists",
  [f"{PR}:AttributePresenceChecker._check_presence",f"{PR}:AttributePresenceChecker._sub_attr_or_top_attr_in_attr_reps"])
p("C39","Excluding attributes: what was excluded may not come back",
  "With an exclude list, a present value is accepted in a response exactly when the attribute is always returned, or is not 'never' and is not listed.",
  "all exclude lists, data and schemas","all lists",
  [f"{PR}:AttributePresenceChecker._check_presence"])
p("C40","Requests are never blamed for carrying unrequested attributes",
  "In the request direction the checker reports nothing but issue 15 (missing).",
  "all checkers, data and schemas","all data",
  [f"{PR}:AttributePresenceChecker._check_presence"])
p("C41","Every bad attribute name in a list of requested attributes is reported",
  "AttributePresenceChecker.parse returns a checker exactly when every name parses; otherwise Invalid, with one issue 111 located at each bad name.",
  "all lists of strings","all lists",
  [f"{PR}:AttributePresenceChecker.parse"])
p("C42","Presence issues are located at declared attributes",
  "Every issue of a presence check is located at attr, (attr, sub) or (attr, i, sub) for a declared attribute.",
  "all data, all schemas","all data",
  [f"{PR}:AttributePresenceChecker.__call__"])
# ---------------------------------------------------------------- match
p("C43","A non-strict match is always decided",
  "Matching any filter operator with strict=False never yields MISSING_DATA, so its truth value never raises.",
  "all filters, data and schemas","induction over filter trees",
  [f"{O}:And.match",f"{O}:Or.match",f"{O}:Not.match",f"{O}:ComplexAttributeOperator.match",f"{O}:BinaryAttributeOperator.match"])
p("C44","Strict matches are non-strict matches",
  "If a filter passes with strict=True and matching it with strict=False on the same data raises nothing, the latter passes too.",
  "all filters, data and schemas","induction over filter trees",
  [f"{O}:MultiOperandLogicalOperator",f"{O}:Not.match",f"{O}:ComplexAttributeOperator.match"])
p("C45","The order of operands does not matter",
  "And and Or give the same status for any permutation of their operands, when no operand raises.",
  "all operand lists and permutations","all permutations",
  [f"{O}:And.match",f"{O}:Or.match"])
p("C46","Strict matching is three-valued logic",
  "And, Or and Not follow Kleene's connectives over {failed, unknown (missing data), passed}, except that Not maps unknown to failed (strict) or passed (non-strict), and an operand on an undeclared attribute is neutral in And and failing in Or.",
  "all filters, data and schemas","induction over filter trees",
  [f"{O}:And.match",f"{O}:Or.match",f"{O}:Not.match"])
p("C47","Comparing a case-insensitive string ignores case, and a case-exact one does not",
  "For a string attribute, eq/ne/co/sw/ew/gt/ge/lt/le on a string value give the result of the comparison on the lower-cased strings if the attribute is not case-exact and on the strings themselves otherwise; changing the case of the data or the operand does not change the first.",
  "all strings and operators","all strings",
  [f"{O}:BinaryAttributeOperator._get_values_for_comparison"])
p("C48","eq and ne are opposite on present single values",
  "For a present single value of a simple attribute, ne passes exactly when eq fails, provided that a string operand of a case-insensitive attribute meets a string (otherwise both fail).",
  "all values","all values",
  [f"{O}:Equal",f"{O}:NotEqual",f"{O}:BinaryAttributeOperator.match"])
p("C49","pr means the attribute has a value",
  "For a simple attribute, pr passes exactly when the value is present, not null, not an empty string and, if a list, has a truthy item; it never yields MISSING_DATA.",
  "all values","all values",
  [f"{O}:Present.match"])
p("C50","A multi-valued attribute matches when one of its values does",
  "For a simple multi-valued attribute, a comparison passes on a list of present values exactly when it passes on one of its items alone (and no earlier item raises); for a complex multi-valued attribute, a sub-filter passes exactly when it passes on one of the items (strict).",
  "all lists","lists of any length",
  [f"{O}:BinaryAttributeOperator.match",f"{O}:ComplexAttributeOperator.match"])
p("C51","Unknown attributes never match",
  "A single comparison, pr or complex filter on an attribute the schema does not declare yields FAILED_NO_ATTR whatever the data.",
  "all data and schemas","all data",
  [f"{O}:BinaryAttributeOperator.match",f"{O}:Present.match",f"{O}:ComplexAttributeOperator.match"])
# ---------------------------------------------------------------- filter parsing
p("C52","Parsing a filter yields a filter or issues, never both",
  "Filter.parse returns Invalid exactly when the returned issues are non-empty.",
  "all strings","all strings",
  [f"{F}:Filter.parse"])
p("C53","Parsing a filter never raises, except on huge or infinite numbers",
  "Filter.parse raises nothing but OverflowError, and that only when a comparison value denotes an infinite float.",
  "all strings","all strings",
  [f"{F}:Filter.parse",f"{U}:parse_comparison_value"])
p("C54","Printing a filter and parsing it gives the filter back",
  "For every filter built from comparisons, pr, not, and, or (properly parenthesised text, plain string values without quote characters or placeholder markers, exactly representable numbers), Filter.parse of its text succeeds and returns that filter.",
  "all filter trees of any depth","induction over unbounded trees",
  [f"{F}:Filter.parse",f"{F}:Filter._parse_operator",f"{F}:Filter._parsed_op_or_exp",f"{F}:Filter._parse_op_and_exp",f"{F}:Filter._parse_op_attr_exp"])
p("C55","Quoted string values are taken verbatim",
  "In a comparison with a double-quoted string that contains no quote character, the parsed comparison value is exactly the text between the quotes, whatever operators, brackets or spaces it contains.",
  "all attribute names, operators and string contents","all strings",
  [f"{F}:Filter.parse",f"{U}:STRING_VALUES_REGEX",f"{U}:get_placeholder"])
p("C56","'and' binds tighter than 'or'",
  "A text of the form x1 and .. and xn or y1 and .. and ym or ... parses to the disjunction of the conjunctions.",
  "any number of operands","any number",
  [f"{F}:Filter._parsed_op_or_exp",f"{F}:Filter._parse_op_and_exp"])
p("C57","Comparison operator names ignore letter case",
  "Changing the letter case of eq, ne, co, sw, ew, gt, ge, lt, le or pr in a comparison does not change the parsed filter.",
  "all comparisons","all spellings",
  [f"{F}:Filter._parse_op_attr_exp"])
p("C58","Unbalanced parentheses are rejected",
  "A filter text without quotes in which the round brackets are not balanced is rejected with issue 100.",
  "all strings without quotes or square brackets","all strings",
  [f"{F}:Filter._parse_operator"])
p("C59","A filter keeps all its parts when groups and complex attributes are mixed",
  "Every complex-attribute filter and every group written in the text appears in the parsed filter at its place. (Fails: the position-keyed placeholders of groups and complex attributes can collide.)",
  "all filter texts","collisions depend on positions",
  [f"{F}:Filter.parse",f"{F}:Filter._get_parsed_group_or_complex_op"])
p("C60","Numbers, booleans and null are read as such",
  "parse_comparison_value maps true/false/null to the constants, quoted text to its inside, an integral number to an int and any other number to the float, and rejects everything else.",
  "all strings","all strings",
  [f"{U}:parse_comparison_value"])
# ---------------------------------------------------------------- patch path
p("C61","A plain patch path is an attribute name",
  "PatchPath.parse of a text without brackets and quotes succeeds exactly when AttrRep.parse does, with that attribute and no filter.",
  "all strings","all strings",
  [f"{PP}:PatchPath.parse"])
p("C62","A parsed patch path is consistent",
  "Every PatchPath returned by parse satisfies the constructor's invariants: with a filter the filter is a complex-attribute filter on the path's own attribute, and the trailing sub-attribute belongs to that attribute.",
  "all strings","all strings",
  [f"{PP}:PatchPath.parse",f"{PP}:PatchPath.__init__"])
p("C63","Malformed brackets in a patch path are rejected",
  "A path (outside quoted text) with more than one '[' or ']', with only one of them, or with ']' before '[' gives Invalid and issue 300.",
  "all strings","all strings",
  [f"{PP}:PatchPath.parse"])
# ---------------------------------------------------------------- sorter
p("C64","Sorting returns the same resources, in order, stably",
  "When sorting does not raise, the result is a permutation of the input in which the sort keys are non-decreasing (ascending) or non-increasing (descending), and resources with equal keys keep their relative order.",
  "all lists of resources","lists of any length",
  [f"{SO}:Sorter.__call__",f"{SO}:Sorter._attr_key"])
p("C65","Resources without a value come last (first when descending)",
  "In an ascending sort every resource without a usable value for the attribute comes after every resource with one; in a descending sort before.",
  "all lists of resources","lists of any length",
  [f"{SO}:AlwaysLastKey",f"{SO}:Sorter._get_key"])
p("C66","Sorting a sorted list changes nothing",
  "sorter(sorter(xs)) == sorter(xs); a list is accepted by the sortedness validation exactly when sorting leaves it in place.",
  "all lists of resources","lists of any length",
  [f"{SO}:Sorter.__call__",f"{V}:validate_resources_sorted"])
# ---------------------------------------------------------------- patch operations
p("C67","A patch cannot touch read-only attributes",
  "PatchOp never accepts without issue an operation (add, replace, or remove) whose path targets a read-only attribute, or a sub-attribute of one.",
  "all resource schemas, operations and values","all schemas and paths",
  [f"{PO}:PatchOp"])
p("C68","A patch operation with an unknown target is rejected",
  "An operation whose path does not name a declared attribute of the resource is reported with issue 303.",
  "all paths","all paths",
  [f"{PO}:PatchOp"])
p("C69","Required attributes cannot be removed",
  "A remove operation on a required attribute is reported with issue 306.",
  "all schemas, paths","all schemas",
  [f"{PO}:PatchOp"])
# ---------------------------------------------------------------- validators
p("C70","A request or response is passed on exactly when it has no issues",
  "For PUT, POST requests and resource responses, the returned body is not None exactly when the returned issues are empty (a POST response without a body is passed as None). The same holds for search requests, where the body passed on is the parsed one and headers and query string are unchanged.",
  "all schemas, bodies, headers and statuses","all inputs",
  [f"{V}:SearchRequestPOST.parse_request",f"{V}:ResourceObjectPUT.parse_request",f"{V}:ResourcesPOST.parse_request",f"{V}:_dump_resource_output_body",f"{V}:Error.dump_response"])
p("C71","PUT strips read-only attributes",
  "After a successful PUT request, reading any plain read-only attribute of the schema from the returned body gives Missing, and all other attributes are kept.",
  "all schemas and bodies","all inputs",
  [f"{V}:ResourceObjectPUT.parse_request"])
p("C72","POST does not ask the client for server-issued attributes",
  "In a POST request no issue 15 is reported for a required attribute issued by the server, and one is reported for every other required top-level attribute that is missing.",
  "all schemas and bodies","all inputs",
  [f"{V}:ResourcesPOST.parse_request"])
p("C73","List responses have consistent counts",
  "A list response is accepted only if totalResults is at least the number of resources, equals it when no count was requested, and no more than count resources are present; with pagination, startIndex and itemsPerPage must be present.",
  "all list responses","all inputs",
  [f"{V}:validate_number_of_resources",f"{V}:validate_pagination_info",f"{V}:_dump_resources_get_response"])
p("C74","Error responses carry the HTTP status they are sent with",
  "An error response is accepted only if its status is the decimal text of the HTTP status and the HTTP status is in the permitted range; a missing status is reported as missing.",
  "all error bodies and statuses","all inputs",
  [f"{V}:Error.dump_response",f"{V}:validate_error_status_code",f"{V}:validate_error_status_code_consistency"])
p("C75","The Location header and meta.location agree",
  "A resource response with a Location header is accepted only if meta.location equals it; a POST response with a body requires the header, the others do not; any other status than the expected one (201 for POST, 200 for GET, PUT and PATCH, or 204 for PATCH) is reported.",
  "all responses","all inputs",
  [f"{V}:_dump_resource_output_body",f"{V}:validate_resource_location_consistency",f"{V}:validate_resource_location_in_header",f"{V}:validate_status_code"])
p("C76","attributes and excludeAttributes exclude each other",
  "parse_requested_attributes gives issues at both parameters when both are non-empty, no checker when both are absent, and otherwise a checker for the given list with the right polarity, or issues for bad names.",
  "all query strings","all inputs",
  [f"{V}:parse_requested_attributes"])
p("C77","Returned resources really match the requested filter",
  "validate_resources_filtered, when matching does not raise, reports an issue at index i exactly when the i-th resource fails the filter non-strictly.",
  "all lists of resources and filters","lists of any length",
  [f"{V}:validate_resources_filtered"])
p("C78","Responses to DELETE and 204 PATCH responses are checked by status only",
  "DELETE reports an issue exactly when the status is not 204; PATCH with 204 reports one exactly when specific attributes were requested; both return no body.",
  "all statuses and checkers","all inputs",
  [f"{V}:ResourceObjectDELETE.dump_response",f"{V}:ResourceObjectPATCH.dump_response"])
p("C79","Paging parameters are integers after parsing",
  "If a list query is parsed without issues, count and startIndex are integers or absent, filter is a parsed filter or absent, and the sorter orders ascending exactly when sortOrder is 'ascending' or absent.",
  "all query strings","all inputs",
  [f"{V}:_parse_resources_get_request",f"{V}:parse_request_sorting",f"{V}:parse_request_filtering"])
p("C80","Bulk requests respect the configured maximum number of operations",
  "A bulk request with more operations than configured is reported and its body withheld; the bulk response is reported when more than failOnErrors operations failed.",
  "all bulk bodies","all inputs",
  [f"{V}:BulkOperations.parse_request",f"{V}:BulkOperations.dump_response"])
p("C81","A filter in brackets makes a patch path that keeps the filter",
  "For every complex-attribute filter text name[filter] of the filter grammar that contains no '|' and no '&' outside quotes, PatchPath.parse gives a path to that attribute with exactly that filter; followed by .sub it gives the sub-attribute sub of the same attribute.",
  "all complex-attribute filter texts and sub-attribute names","texts of any length and depth",
  ["src/data/path.py:PatchPath.parse"])
p("C82","Issues of a resource stand under the attribute they are about",
  "Whenever a schema parses or dumps an object, the issues reported below the location of a present attribute (its name, after the URN for attributes of extensions) are exactly those that the attribute itself reports for the value, and every other issue is about the schemas field.",
  "all schemas, modes and data","data of any size and shape",
  ["src/data/schemas.py:BaseSchema._process"])
PO="src/assets/schemas/patch_op.py"
p("C83","Accepted patch operations are well-formed",
  "In a patch request accepted without issues every op is add, remove or replace up to letter case (or absent), an operation 'remove' has a path, and an operation 'add' has a value and, if its path has a filter, names a sub-attribute.",
  "all resource schemas and request bodies","requests of any size",
  [f"{PO}:validate_operations",f"{PO}:PatchOp.parse"])
p("C84","Accepted patch requests keep their operations",
  "A patch request accepted without issues has as many operations as the input, in the same order, each with the parsed path of the input; add and replace keep op and the value as the targeted attribute parses it.",
  "all resource schemas and request bodies","requests of any size",
  [f"{PO}:PatchOp.parse",f"{PO}:PatchOp._parse_add_or_replace_operation",f"{PO}:PatchOp._parse_remove_operation"])
p("C85","Accepted patch values set no read-only attributes",
  "In a patch request accepted without issues, the value of an add or replace operation without path parses against the resource schema without issues other than about schemas and sets no read-only attribute, and the value for a single-valued complex attribute sets none of its read-only sub-attributes.",
  "all resource schemas and request bodies","requests of any size",
  [f"{PO}:PatchOp._parse_operation_value",f"{PO}:PatchOp._parse_update_attr_value"])
p("C86","Reading and writing a resource report only value and schema errors",
  "Whatever issues are reported for a resource body that is not null when it is parsed or dumped (where a resource type that does not fit may be reported besides, at that place only), each is one of: bad syntax, bad type, bad encoding, reserved word, bad URL, several primaries, value not among the allowed, unknown or missing schema URNs. In particular no missing attributes are reported by parsing itself.",
  "all resource schemas with standard processors and all bodies","bodies of any size and depth",
  ["src/schemas.py:BaseSchema.parse","src/data/attributes.py:Attribute.parse","src/data/attributes.py:Complex.parse"])
p("C87","Accepted bulk requests hold operations that would be accepted on their own",
  "In a bulk request accepted without issues every operation has a method and a path that fits it (POST goes to a resource collection and has a bulkId, the other methods go to a member of one), the resource is known unless it is deleted, and the data of a POST, PUT or PATCH is accepted without issues by the request that the operation stands for; the data handed on is the body of that request and method, path, bulkId and version are handed on unchanged.",
  "all bulk bodies and all tables of resources","bodies with any number of operations",
  [f"{V}:BulkOperations.parse_request","src/assets/schemas/bulk_ops.py:validate_request_operations"])
p("C88","Accepted bulk responses explain every operation",
  "A bulk response accepted without issues has status 200 and, for every operation, one of the five methods, a numeric status, a bulkId for a POST, and a location that leads to a known resource (only a failed POST may lack it). An operation that failed (status 300 or more) has a response, and if that is not empty it is an error accepted on its own for that status. A successful operation with a response carries what the single response for the method, resource and location would carry; that single response is free of issues if the status is the one the method answers with (otherwise only its status is at fault, and the resource is silently dropped), and its version agrees with that of the operation. Method, bulkId, version, location and status are handed on unchanged.",
  "all bulk bodies, headers, limits and all tables of resource schemas","bodies with any number of operations; the interplay of two validators per operation",
  [f"{V}:BulkOperations.dump_response","src/assets/schemas/bulk_ops.py:validate_response_operations"])
p("C89","Schemas describe themselves truthfully",
  "For every schema, get_schema_rep raises (AttributeError) exactly when some attribute at some depth has no type. If all types have a name in schema documents, the representation is accepted by Schema().dump without issues and the result says exactly what the schema is: URN, name, description, and for every attribute in order its name, type, plurality, description, necessity, canonical values, case sensitivity (strings only), mutability, returnability, uniqueness, reference types and sub-attributes, at every depth. The representation of a schema with a decimal attribute is reported.",
  "all schemas","schemas with any number of attributes, nested to any depth",
  ["src/data/schemas.py:get_schema_rep","src/data/attributes.py:Attribute.to_dict","src/data/attributes.py:ComplexAttribute.to_dict","src/assets/schemas/schema.py:dump_attributes"])
p("C90","Accepted schema documents are consistent",
  "Whatever is dumped by the Schema resource without issues has attributes that are absent, null or a list of consistent descriptions: known type, mutability, returnability and uniqueness, truth values where expected, caseExact exactly for the type string, and sub-attributes only for the type complex, themselves consistent at every depth.",
  "all inputs of Schema().dump","documents of any size and depth",
  ["src/assets/schemas/schema.py:dump_attributes","src/assets/schemas/schema.py:attributes"])
p("C91","What was read can be written, and read again unchanged",
  "An object that a resource schema's parse accepts without issues is accepted by dump (which may only find that meta.resourceType names another resource), and parsing what dump returned gives, without issues, exactly the object obtained first; likewise what dump accepted is accepted by parse, and dumping the parsed object gives exactly the dumped one. Dates must survive isoformat and fromisoformat, and an extension must not reuse the name of a core attribute.",
  "all inputs of parse and dump of the schemas User (with the enterprise extension), Group, ResourceType, ServiceProviderConfig, and all schemas whose post-processors only check","composition of two conversions over every input; tests look at a few round trips",
  ["src/data/schemas.py:BaseSchema._process","src/data/schemas.py:ResourceSchema.dump","src/data/attributes.py:Attribute._process","src/data/types.py"])
p("C92","Every resource of a list response is held to what was asked for",
  "What a list response is told about missing, forbidden or unrequested attributes is, at the index of each resource, what that resource alone is told; an accepted list response holds only resources about which nothing is reported, and if the client asked for an order, sorting the resources leaves an equal resource at every position.",
  "all lists of resources, schemas, presence checkers and sorters","lists of any length, several schemas at once",
  [f"{V}:validate_resources_attributes_presence",f"{V}:validate_resources_sorted",f"{V}:_dump_resources_get_response"])
p("C93","PATCH requests are handed on only when new items are complete",
  "A PATCH request has a body exactly when nothing is reported about it, and then the body is the parsed one; the headers are kept. If the query string and the operations are free of issues, what is reported is exactly the required parts that are missing in the items that an add or replace operation brings for a multi-valued complex attribute, whether by path or inside an object; so such a request is accepted exactly when every new item is complete. For User and Group no item can be incomplete.",
  "all resource schemas, request bodies, headers and query strings","requests with any number of operations and items",
  [f"{V}:ResourceObjectPATCH.parse_request",f"{PO}:PatchOp.parse"])
p("C94","Schemas and resource types are listed in full",
  "Requests for the schemas or resource types are reported exactly when the query string is a dictionary with a filter, with 'not supported' at the filter and nothing else; query string and body are dropped, headers kept.",
  "all headers, bodies and query strings","all inputs",
  [f"{V}:_ServiceProviderConfig.parse_request"])
p("C95","Search requests are read faithfully",
  "When a search request is accepted, the body was an object; the filter of the result is the parse of its filter, count and startIndex are integers, sortBy and the names to include or leave out are the parses of the given names, and at most one of the two lists of names is non-empty. A presence checker is added exactly when attributes are named, for exactly those names, and a sorter exactly when sortBy is given, for that name. Both lists together are reported with 30 at both and nothing else. (The sorter is always descending whatever sortOrder says, sortOrder may be any text, and excludeAttributes alone makes no presence checker.)",
  "all bodies","all inputs",
  ["src/assets/schemas/search_request.py:SearchRequest.parse","src/assets/schemas/search_request.py:parse_attr_rep_multi",f"{V}:SearchRequestPOST.parse_request"])
p("C96","Requests with ordinary JSON are answered, not raised at",
  "Parsing a PUT or POST request for users or groups (or for any schema built of the same kinds of attributes) never raises: the body is any JSON value within the limits of C34 (also null, a list, a text, a number), the query string anything whose lists of names hold texts. The same holds for reading a resource. Reading many resources (with texts in the query string, the filter may be anything) and searching (with any JSON body) raise in one case only: the filter contains a number too large to be finite.",
  "all bodies, headers and query strings within the stated limits","totality over unbounded data",
  [f"{V}:ResourceObjectPUT.parse_request",f"{V}:ResourcesPOST.parse_request",f"{V}:ResourceObjectGET.parse_request",f"{V}:_parse_resources_get_request",f"{V}:SearchRequestPOST.parse_request"])
p("C97","Responses made from ordinary values are answered, not raised at",
  "Preparing the response to reading, replacing, creating or changing a user or group (or a resource of any schema built of the same kinds of attributes), to reading the service provider configuration, and the response with an error never raise: the body is any value within the limits of C34 (also null, a list, a text, a date), the status any integer, the headers none or a dictionary whose Location is a scalar, the presence checker any.",
  "all bodies, headers, statuses and presence checkers within the stated limits","totality over unbounded data",
  [f"{V}:ResourceObjectGET.dump_response",f"{V}:ResourcesPOST.dump_response",f"{V}:ResourceObjectPATCH.dump_response",f"{V}:Error.dump_response"])
p("C98","List responses made from ordinary values are answered, not raised at",
  "Preparing the response to reading or searching many resources never raises, whatever the status, headers, start index, count, filter, sorter and presence checker: the body is any value within the limits of C34 (also null, a list, a text), and the resources in it are of users, groups or any schemas built of the same kinds of attributes, each within the same limits, however faulty. If the resources may be of several schemas, none of them may have a key spelled like a main URN.",
  "all bodies, statuses, headers, start indices, counts, filters, sorters and presence checkers within the stated limits","totality over lists of any length, filters of any depth and all sort keys",
  [f"{V}:_dump_resources_get_response","src/assets/schemas/list_response.py:ListResponse.dump",f"{V}:skip_if_bad_data",f"{V}:validate_resources_filtered",f"{V}:validate_resources_sorted",f"{V}:validate_resources_attributes_presence"])
p("C99","Accepted filters are well-formed",
  "Whatever text is given, a filter that is accepted, and the filter in a PATCH path that is accepted, is well-formed: every operand of 'and' and 'or' and every part of a complex filter is there and well-formed, 'and' and 'or' have operands, every attribute name consists of valid names, and every value is a text, a number, a boolean or null.",
  "all texts","texts of any length and nesting",
  ["src/filter.py:Filter.parse","src/data/path.py:PatchPath.parse"])
p("C100","Filters are equal exactly when they are written alike, and equal filters select the same resources",
  "Comparing two filters never raises. It says 'equal' exactly when both have the same structure, the same operators, the same attribute names (schema in lower case, attribute and sub-attribute as shown) and equal values. On accepted filters this is an equivalence relation, and two equal filters give the same verdict, or raise the same exception, on every resource, whatever the schema and strictness. Two PATCH paths are equal exactly when their attributes, filters and sub-attributes are.",
  "all pairs of filters, all pairs of paths, all data","filters of any depth",
  ["src/filter.py:Filter.__eq__","src/filter.py:Filter.to_dict","src/data/path.py:PatchPath.__eq__","src/filter.py:Filter.__call__"])
p("C101","A configuration is made exactly from sensible settings",
  "create_service_provider_config returns exactly when every option is left out, empty, or a dictionary with known settings only, every authentication scheme is a dictionary with the five fields, and the limits of bulk operations and filtering are given (and not zero) if these are supported; the result then says what the arguments say and has False or None for the rest. Otherwise it raises TypeError or ValueError, and ValueError if only limits are missing. So a configuration that supports bulk operations or filtering always has the limits.",
  "all arguments","all values under all keys, any number of schemes",
  ["src/assets/config.py:create_service_provider_config","src/assets/config.py:_BulkOption","src/assets/config.py:_FilterOption"])
p("C102","Error messages are always produced, complete and telling",
  "Whatever values an error is about, making it never raises; its message is the documented text with the values put in, every value is shown in it, and its context holds the values under their names; making one directly with a context that lacks a name the message shows raises KeyError. Two errors with the same message have the same code, so a message identifies the kind of error; an error equals exactly its message and the errors with the same message.",
  "all kinds of errors and all values they are about","values are arbitrary texts, also ones that look like parts of messages or replacement fields",
  ["src/error.py:ValidationError"])
p("C103","When patch requests are answered and when they raise",
  "Reading the document of a patch request for users, groups or any schema built of the same kinds of attributes does not raise for any JSON value that is no object, and for any ordinary object that has something for Operations, as long as each operation among them has a path or, if it has none, says 'add' or 'replace' in these letters with an ordinary object as value, and no single complex attribute with a read-only part is set to null. The request as a whole, once its document is accepted, raises TypeError exactly when an operation sets a multi-valued complex attribute to null; otherwise it is answered.",
  "all bodies, headers and query strings within the stated limits","any number of operations with any paths, filters and values",
  [f"{PO}:PatchOp.parse",f"{V}:ResourceObjectPATCH.parse_request",f"{V}:ResourceObjectPATCH._check_complex_sub_attrs_presence"])
p("C104","When bulk requests are answered and when they raise",
  "Parsing a bulk request whose body is an ordinary object with a list under Operations, with a limit for the number of operations, is answered exactly when none of the operations whose path is followed has a method other than GET, POST, PUT, PATCH and DELETE in these letters, a path without slash, or data for a known kind of resources that makes the parser of the single request raise. In all other cases it raises: for bodies that are no objects, without a list of operations, and (TypeError) without a limit. A request whose operations all have one of the methods, a path with a slash and data the single request copes with is therefore answered; data for creating or replacing users and groups may be any ordinary JSON object.",
  "all bodies within the stated limits, all known schemas, limits, headers and query strings","any number of operations, in any combination of faults",
  [f"{V}:BulkOperations.parse_request","src/assets/schemas/bulk_ops.py"])
p("C105","When bulk responses are answered and when they raise",
  "For resources as users and groups are declared, dumping a bulk response whose body is an ordinary object with a list under Operations is answered exactly when none of the operations has a location next to a method that is not GET, POST, PUT, PATCH or DELETE in these letters, a response to a deletion below status 300 with a location, a response to a failure (status 300 and above) that makes the dumper of errors raise, or a response to a success at a location that makes the dumper of the single response raise for the schema the location leads to (the last one registered when it leads to none). An ordinary object without a list under Operations is answered with issues and without body; a body that is no object raises. A response whose operations have one of the five methods, nothing for deletions, an ordinary error for failures and an ordinary resource of the right kind for successes is therefore always answered.",
  "all bodies within the stated limits, all registered schemas of the stated kind, status codes, headers and limits for errors","any number of operations, in any combination of faults",
  [f"{V}:BulkOperations.dump_response","src/assets/schemas/bulk_ops.py"])
p("C106","Collections of validation issues influence each other only where one is a part of the other",
  "In any program that makes collections of validation issues, adds to them, merges them and takes parts of them with get and pop, a step changes what is seen of a collection only if it works on this collection, on one it shares parts with (because one was taken from the other, or both from the same one by get or pop), or merges this collection into another; this holds whatever the steps raised before. The argument of a merge keeps its issues, but afterwards blocks at each of its locations. On collections that share nothing, new, add, merge, get and pop do exactly what they do on independent values; add and merge raise KeyError exactly when a part taken with get lacks an entry they need. What is added to a part just taken, at a location it has, appears in the whole, and the other way round; what is added to the whole at a new location does not appear in the parts taken before.",
  "all programs of any length over any number of collections","histories of any length, any pattern of sharing, also after exceptions",
  ["src/error.py:ValidationIssues"])
p("C107","Filters that fit a schema always give a verdict, and filtered lists are checked in full",
  "Applied to a resource whose attributes are absent, null or of the declared types, a filter gives a verdict, without raising, if it fits the schema: names before a colon are not names of attributes, sub-attributes are asked for of complex or single-valued attributes only, presence is not asked for of a multi-valued complex attribute, dates are compared with dates and for the order with dates of the same kind (with or without offset), and other orders and searches in text compare text with text or numbers with numbers. What a schema writes without issues is such a resource. Therefore every resource in an accepted list response to a request with a fitting filter matches the filter, and otherwise an issue is reported at the index of exactly the resources that do not match. Each condition is needed: for a filter that raises for one resource, resources that do not match are accepted.",
  "all fitting filters, all resources of any schema built of the same kinds of attributes as users and groups, all list responses within the stated limits","filters of any depth and lists of any length",
  ["src/filter.py:Filter.__call__","src/data/operator.py",f"{V}:validate_resources_filtered",f"{V}:ServerRootResourceGET"])
p("C108","Containers leave the caller's data alone and share nothing with it, up to stated exceptions",
  "Whatever a program does with containers of data (builds them from dictionaries, reads, writes and deletes attributes, converts them back with to_dict), also when methods raise half-way: a list or dictionary of the caller that no container holds as the value of an attribute, and that is not handed over by a write, never changes; building, reading and converting back change no object at all. A container built from a document without repeated parts, and the dictionary it is converted back to, share no object with the document or each other, unless a list is an item of a list. On such objects construction, reading, writing, deleting and converting back do exactly what they do on independent values, with the same exceptions, and any history of writes and deletions ends as the same history on values while the document keeps its value. The exceptions: a list written to a container is not copied, and later writes of sub-attributes extend it; what reading hands out is the part itself; a container made from a container shares all its content with it; lists inside lists stay shared.",
  "all programs of any length over any number of lists, dictionaries and containers, all documents without repeated parts, all histories of writes and deletions","histories of any length, any pattern of sharing, also after exceptions",
  ["src/data/container.py:SCIMDataContainer"])
p("C109","Reading or writing a resource depends only on what the body holds for the declared attributes",
  "Two bodies that hold the same for each declared attribute (and sub-attribute, at any depth) are parsed and dumped with the same result: the same object, the same issues, or the same exception. In particular neither the spelling (letter case) of names nor the order of the entries matters, on any level, and an attribute that is not declared does not matter, wherever it stands and whatever it holds. Requests that create or replace a resource and responses with a resource are answered alike. Attributes are processed apart from each other: what comes out for one attribute, and what is reported about it, depends on what the body holds for this attribute only. Conditions: within one object names are distinct up to letter case and not empty, and what stands under a schema URN is an object; without them the claims are false (duplicates: the last one counts; an entry with the empty name hides the sub-attributes next to it).",
  "all schemas whose attributes are declared with a type (users and groups among them), all pairs of bodies, parsing and dumping","pairs of documents of any size and depth",
  ["src/data/schemas.py:BaseSchema.parse","src/data/schemas.py:BaseSchema.dump","src/data/attributes.py:Attribute","src/data/attributes.py:ComplexAttribute","src/data/container.py:SCIMDataContainer"])
p("C110","A query string handed over again: what requests leave in the caller's dictionary",
  "Request validators write what they make of the query string into the caller's dictionary, also when they raise half-way. In any history of requests with the same dictionary: only the entries filter, sorter, presence_checker, count and startIndex ever change; requests about one resource (GET, PUT, POST, PATCH) are answered as if they came first; list requests are so after any requests but list requests; a list request repeated after the caller restored the filter gives the same issues or exception and the same entries. But after a list request that did not raise, with or without a filter, accepted or not, every later list request with the dictionary is answered with a complaint about the type of the filter, the filter is lost also from the request data handed out before (it is the same dictionary), and requests for the list of schemas or of resource types are rejected.",
  "all dictionaries, all histories of requests of all kinds, of any length","histories of any length, any entries, also after exceptions",
  [V+":_parse_resources_get_request",V+":parse_requested_attributes",V+":ResourceObjectGET.parse_request",V+":_ServiceProviderConfig.parse_request"])
p("C111","The full report shows every error with its message and context, and collections with messages behave like those without",
  "to_dict(msg, ctx) has, at the nested path given by the string form of each location, one item per error recorded there, in order, with its code, with its message exactly when msg is set and with its context exactly when ctx is set; the flags change nothing else in the report, and it raises exactly when the report without them does (which needs a location part '_errors'). Two errors shown with the same message have the same code. Issue collections holding whole errors, which are compared by their messages, are changed by add, merge, get and pop exactly like collections holding code and message only, so the properties C12 to C17 hold for them.",
  "all issue collections made by any history of add, merge, get and pop from any errors","all histories, messages with arbitrary texts in them",
  ["src/error.py:ValidationIssues","src/error.py:ValidationError"])
p("C112","A request to create or replace a resource is accepted exactly when its document is a valid resource",
  "For an ordinary JSON body and a query string that gives attribute names as texts, creating and replacing a resource are always answered, and without any issue exactly when (1) the query string does not name attributes both to include and to leave out and all its names are well-formed, (2) the body is an object, (3) what it holds for each declared attribute is null or of the attribute's type: lists for multi-valued attributes, objects with valid sub-attributes for complex ones, at most one of the items primary, no identifier containing bulkId, canonical values where they are enforced, (4) the listed schemas, if any, are all known and contain the schema of the resource and every extension that is used, and (5) every required attribute is given: to create a resource all but those the server issues, to replace one all. The words of (1) to (5) speak about the document only. The schemas of users and groups are covered.",
  "all well-formed schemas with usual attributes (users and groups among them), all ordinary JSON bodies, all headers and query strings of that shape","all documents: neither a wrongly accepted nor a wrongly rejected one can be found by trying some",
  [V+":ResourcesPOST.parse_request",V+":ResourceObjectPUT.parse_request","src/data/schemas.py:BaseSchema.parse","src/data/attributes.py:Attribute.parse","src/attributes_presence.py:AttributePresenceChecker"])
p("C113","A response with a resource is accepted exactly when it may be sent",
  "For an ordinary body (dates as date objects) and headers whose Location is a plain value, the responses that read, replace, change or create a resource are always answered, and without any issue exactly when (1) the status is the expected one: 200, or 201 after creating, (2) after creating, the header Location is there, (3) the body is an object holding acceptable values only and the right list of schemas, (4) meta.resourceType, if the body has it, is the name of the resource, (5) every required attribute is given in all its places, unless other attributes were requested, (6) no attribute is shown that is never returned, or that is not always returned and was left out or not among the requested ones nor related to them, and (7) the header Location, if there is one, equals meta.location of the body. Also accepted are: after creating, a response without a body; after changing, status 204 unless attributes were asked for. The words speak about the response only. Users and groups are covered.",
  "all well-formed resource schemas with usual attributes (users and groups among them), all ordinary bodies, statuses, headers and sets of requested or excluded attributes","all documents and all sets of requested attributes: neither a wrongly sent nor a wrongly withheld response can be found by trying some",
  [V+":_dump_resource_output_body",V+":ResourceObjectGET.dump_response",V+":ResourceObjectPUT.dump_response",V+":ResourcesPOST.dump_response",V+":ResourceObjectPATCH.dump_response","src/data/schemas.py:ResourceSchema.dump","src/attributes_presence.py:AttributePresenceChecker"])
p("C114","An error response is accepted exactly when it is an error document with its own status; the predefined errors lack their schemas",
  "For an ordinary body, an error response is always answered, and without any issue exactly when the status lies in 200..599 and the body is an object that lists the error schema and no other, whose status is the status of the response in decimal digits, and whose scimType and detail are texts, null or absent. Hence each of the ten predefined errors is refused as it stands, with every status, because it lists no schema; with the list of schemas added it is accepted with status 400 and with no other.",
  "all ordinary bodies, statuses and headers; all ten predefined errors","all documents and statuses; the predefined errors are never sent through the validator by the code",
  [V+":Error.dump_response","src/assets/scim_error.py","src/assets/schemas/error.py:Error"])
p("C115","A list response is accepted exactly when it is a list document for the request whose resources may each be sent",
  "For an ordinary body, a list response is always answered. Without filter and order it has no issue exactly when the status is 200 and the body is an object that lists the list schema and no other; whose Resources are a list (or absent); whose totalResults is a whole number no smaller than the number of resources, and equal to it when no count was asked for; with no more resources than were asked for; with startIndex and itemsPerPage given when a positive count was asked for and there are more resources in total; whose startIndex, unless null or zero, is not after the one asked for; whose itemsPerPage, unless null or without Resources, is the number of resources; and whose every resource is an object that may be sent (C113) as a resource of the only schema, or of the first schema that knows all URNs it lists. With a filter that fits the schemas the same holds, and every resource must pass the filter; with an order, plain keys and distinct resources, the resources must stand in the order.",
  "all ordinary bodies, statuses, start positions and counts, presence requests, non-empty lists of listable proper resource schemas, well-typed filters, sorters","all documents, all numbers of resources, all schemas",
  [V+":_dump_resources_get_response",V+":validate_resources_attributes_presence",V+":validate_number_of_resources",V+":validate_pagination_info","src/assets/schemas/list_response.py:ListResponse"])
p("C116","A search, or a request for a list, is accepted exactly when each of its parts is properly written",
  "A search with an ordinary body is answered without issues exactly when the body is an object in which: the schemas listed, if any, are the schema of searches; the attributes to include and those to leave out are lists of properly written names, one of them empty; the filter is a text that is read as a filter; the attribute to sort by is a properly written name and the order any text; startIndex and count are whole numbers. Every part may be absent or null. A GET for a list, whose names are given as texts or lists of texts, is answered without issues exactly when the query string is an object whose filter is a text that is read as a filter, whose sortBy is a properly written name, whose names of attributes are properly written and not given both to include and to leave out, and whose count and startIndex are taken by Python's int.",
  "all ordinary bodies of searches; all query strings whose names are texts or lists of texts; all headers","all documents, all names, all filters",
  [V+":SearchRequestPOST.parse_request",V+":_parse_resources_get_request",V+":parse_requested_attributes",V+":parse_request_sorting",V+":parse_request_filtering","src/assets/schemas/search_request.py:SearchRequest"])
p("C117","A patch document is accepted exactly when each operation can be done to resources of the schema",
  "For users, groups and every schema of standard attributes with one extension at most: a patch document that can be looked at (C103) is accepted without issues exactly when it is an object in which the schemas listed, if any, are the schema of patch requests, and Operations is a list of objects of which each is a good operation. In a good operation op is one of the three words in any spelling, null or absent; add has a value that is not null, and no filter without an attribute behind it. If op is add or replace in these very letters, then either there is a path: it points at a declared attribute that can be changed, the value is one that attribute accepts, and an object for a single complex attribute has nothing for its read-only parts; or there is none: the value is an object whose values are acceptable to the attributes, and which has nothing for read-only attributes or parts. In every other case there is a path, and what it points at is declared, can be changed and is not required, though a required complex attribute can be removed as a whole.",
  "all schemas of standard attributes; all patch documents that can be looked at","all documents, any number of operations, all paths and values",
  [PO+":PatchOp.parse",PO+":PatchOp._parse_add_or_replace_operation",PO+":PatchOp._parse_operation_value",PO+":PatchOp._parse_update_attr_value",PO+":PatchOp._parse_remove_operation",PO+":validate_operations"])
p("C118","A patch request is accepted by the endpoint exactly when its query is fine and its body is complete",
  "For users, groups and every schema of standard attributes with one extension at most and no required parts of lists of objects: a patch request whose body can be looked at (C103) is accepted by the endpoint without issues exactly when the query string is fine (C112) and the body is a patch document as in C117 that is complete: it lists the schema of patch requests at least once, it has an operation at least, and no add or replace gives null for an attribute whose values are lists of objects, neither at a path nor in an object without path. A body that is a patch document raises TypeError exactly when one of its operations does give such a null, whatever else the request lacks.",
  "all schemas of standard attributes; all bodies that can be looked at; all query strings; all headers","all documents, any number of operations, all paths and values",
  [V+":ResourceObjectPATCH.parse_request",PO+":PatchOp.parse"])
p("C119","The operations of a patch request are judged one by one",
  "For users, groups and every schema as in C118: a patch request with operations is accepted by the endpoint exactly when each of its operations is accepted in a request of its own, with the same schemas and query string and any headers. So the order of the operations, repeating some and leaving some out (but not all) do not matter: a request all of whose operations are among those of an accepted request is accepted.",
  "all schemas as in C118; all bodies that can be looked at; all query strings; all headers","all documents, any number of operations, all orders and selections",
  [V+":ResourceObjectPATCH.parse_request",PO+":PatchOp.parse"])
out = pathlib.Path(__file__).resolve().parent.parent/"properties.jsonl"
out.write_text("".join(json.dumps(x, ensure_ascii=False)+"\n" for x in P))
print(len(P))
