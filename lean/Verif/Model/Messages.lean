import Verif.Model.Base

/-!
# Messages (`ValidationError`, src/error.py:5-302)

Written by `tools/gen_messages.py` from the table of messages and the class methods.  A value that is put into a message is
represented by its two texts: what `str` (which is what `format` uses for the values occurring here) and `repr` make of it.
-/

namespace Scim.Messages

/-- A value, as far as messages are concerned. -/
structure Arg where
  str : Str
  repr : Str
deriving DecidableEq, Repr

/-- A part of a format string: literal text, `{name}` or `{name!r}`. -/
inductive Seg where
  | lit (s : Str)
  | str (name : Str)
  | repr (name : Str)
deriving DecidableEq, Repr

/-- A replacement field, without its braces. -/
def field (s : Str) : Seg :=
  if s.drop (s.length - 2) = ['!', 'r'] then .repr (s.take (s.length - 2)) else .str s

/-- The parts of a format string, for strings without doubled braces, format specifications and indices (none of the
messages has any).  `cur` is the text read so far, `inside` whether it is inside braces. -/
def segments (inside : Bool) (cur : Str) : Str → List Seg
  | [] => if cur.isEmpty then [] else [.lit cur]
  | c :: r =>
    if inside then
      if c = '}' then field cur :: segments false [] r else segments true (cur ++ [c]) r
    else if c = '{' then (if cur.isEmpty then segments true [] r else .lit cur :: segments true [] r)
    else segments false (cur ++ [c]) r

/-- `str.format(**context)`: a name that is not in the context raises `KeyError`. -/
def fill (context : List (Str × Arg)) : List Seg → PyM Str
  | [] => .ok []
  | s :: r =>
    match (match s with
      | .lit t => Except.ok t
      | .str n => match aget n context with
        | some a => .ok a.str
        | none => .error PyErr.keyError
      | .repr n => match aget n context with
        | some a => .ok a.repr
        | none => .error PyErr.keyError) with
    | .error e => .error e
    | .ok t => match fill context r with
      | .error e => .error e
      | .ok ts => .ok (t ++ ts)

/-- `_message_for_code` (src/error.py:6-71). -/
def table : List (Nat × Str) := [
  (1, "bad value syntax".toList),
  (2, "expected type '{expected}', got '{provided}' instead".toList),
  (3, "SCIM '{scim_type}' values are expected to be encoded in base 64".toList),
  (7, "'{keyword}' is SCIM reserved keyword that MUST NOT occur in a attribute value".toList),
  (8, "'{value}' is not a valid URL".toList),
  (9, "'primary' attribute, in multi-valued attribute item, set to 'True', MUST appear no more than once, but these items have it: {primary_entries}".toList),
  (10, "header '{header}' is required".toList),
  (11, "must be equal to {value!r}".toList),
  (12, "error status should be greater or equal to 300 and lesser than 600, but provided {provided}".toList),
  (13, "HTTP response status ({response_status}) and error status in body ({body_status}) must match".toList),
  (14, "value must be one of: {expected_values}, but provided '{provided}'".toList),
  (15, "missing".toList),
  (16, "bad status code, expecting '{expected}', but provided '{provided}'".toList),
  (17, "meta.resourceType must match configured type `{resource_type}`, but provided '{provided}'".toList),
  (19, "should not be returned".toList),
  (21, "too many results, must {must}".toList),
  (22, "total results ({total_results}) do not match number of resources ({n_resources})".toList),
  (23, "too little results, must {must}".toList),
  (24, "response value of {response_key!r} ({response_value}) does not correspond to query parameter {query_param_name!r} ({query_param_value}): {reason}".toList),
  (25, "resource included in the result, but does not match the filter".toList),
  (26, "resources are not sorted".toList),
  (27, "unknown schema".toList),
  (28, "main schema not included".toList),
  (29, "extension {extension!r} is missing".toList),
  (30, "can not be used together with {other!r}".toList),
  (33, "complex sub-attribute {sub_attr!r} of {attr!r} can not be complex".toList),
  (34, "resource type endpoint is required".toList),
  (35, "resource object endpoint is required".toList),
  (36, "unknown resource".toList),
  (37, "too many operations (max {max})".toList),
  (38, "too many errors (max {max})".toList),
  (39, "value or operation not supported".toList),
  (100, "one of brackets is not opened / closed".toList),
  (102, "one of complex attribute brackets is not opened / closed".toList),
  (104, "missing operand for operator '{operator}' in expression '{expression}'".toList),
  (105, "unknown {operator_type} operator '{operator}' in expression '{expression}'".toList),
  (106, "unknown expression '{expression}'".toList),
  (107, "no expression or empty expression inside grouping operator".toList),
  (109, "complex attribute can not contain inner complex attributes or square brackets".toList),
  (110, "complex attribute {attribute!r} has no expression".toList),
  (111, "attribute {attribute!r} does not conform the rules".toList),
  (112, "bad comparison value {value!r}".toList),
  (113, "comparison value {value!r} is not compatible with {operator!r} operator".toList),
  (300, "bad operation path".toList),
  (303, "unknown operation target".toList),
  (304, "attribute can not be modified".toList),
  (305, "can not use complex filter without sub-attribute specified for 'add' operation".toList),
  (306, "attribute can not be deleted".toList)]

/-- An error (src/error.py:73-77). -/
structure Error where
  code : Nat
  message : Str
  context : List (Str × Arg)
deriving DecidableEq, Repr

/-- `ValidationError.__init__` (src/error.py:73-77). -/
def mk (code : Nat) (context : List (Str × Arg)) : PyM Error :=
  match aget code table with
  | none => .error .keyError
  | some t => match fill context (segments false [] t) with
    | .error e => .error e
    | .ok m => .ok { code, message := m, context }

/-- `", ".join(…)` -/
def joinComma : List Str → Str
  | [] => []
  | [x] => x
  | x :: y :: r => x ++ ", ".toList ++ joinComma (y :: r)

/-- The value of a text, given the text and its `repr`. -/
def entries (ns : List Nat) (repr : Str) : Arg := { str := joinComma (ns.map fun n => (toString n).toList), repr }

/-- The calls of the class methods. -/
inductive Call where
  /-- src/error.py:79-81 -/
  | badValueSyntax
  /-- src/error.py:83-85 -/
  | badType (expected provided : Arg)
  /-- src/error.py:87-89 -/
  | base64EncodingRequired (scimType : Arg)
  /-- src/error.py:91-93 -/
  | reservedKeyword (keyword : Arg)
  /-- src/error.py:95-97 -/
  | badUrl (value : Arg)
  /-- src/error.py:99-101 -/
  | multiplePrimaryValues (primaryEntryNumbers : List Nat) (joined : Str)
  /-- src/error.py:103-105 -/
  | missingRequiredHeader (header : Arg)
  /-- src/error.py:107-109 -/
  | mustBeEqualTo (value : Arg)
  /-- src/error.py:111-113 -/
  | badErrorStatus (provided : Arg)
  /-- src/error.py:115-117 -/
  | errorStatusMismatch (responseStatus bodyStatus : Arg)
  /-- src/error.py:119-121 -/
  | mustBeOneOf (expectedValues provided : Arg)
  /-- src/error.py:123-125 -/
  | missing
  /-- src/error.py:127-129 -/
  | badStatusCode (expected provided : Arg)
  /-- src/error.py:131-133 -/
  | resourceTypeMismatch (resourceType provided : Arg)
  /-- src/error.py:135-137 -/
  | restrictedOrNotRequested
  /-- src/error.py:139-141 -/
  | tooManyResults (must : Arg)
  /-- src/error.py:143-145 -/
  | totalResultsMismatch (totalResults nResources : Arg)
  /-- src/error.py:147-149 -/
  | tooLittleResults (must : Arg)
  /-- src/error.py:151-167 -/
  | responseValueDoesNotCorrespondToParameter (responseKey responseValue queryParamName queryParamValue reason : Arg)
  /-- src/error.py:169-171 -/
  | includedResourceDoesNotMatchFilter
  /-- src/error.py:173-175 -/
  | resourcesNotSorted
  /-- src/error.py:177-179 -/
  | unknownSchema
  /-- src/error.py:181-183 -/
  | missingMainSchema
  /-- src/error.py:185-187 -/
  | missingSchemaExtension (extension : Arg)
  /-- src/error.py:189-191 -/
  | canNotBeUsedTogether (other : Arg)
  /-- src/error.py:193-195 -/
  | complexSubAttribute (attr subAttr : Arg)
  /-- src/error.py:197-199 -/
  | resourceTypeEndpointRequired
  /-- src/error.py:201-203 -/
  | resourceObjectEndpointRequired
  /-- src/error.py:205-207 -/
  | unknownResource
  /-- src/error.py:209-211 -/
  | tooManyOperations (max : Arg)
  /-- src/error.py:213-215 -/
  | tooManyErrors (max : Arg)
  /-- src/error.py:217-219 -/
  | notSupported
  /-- src/error.py:221-223 -/
  | bracketNotOpenedOrClosed
  /-- src/error.py:225-227 -/
  | complexAttributeBracketNotOpenedOrClosed
  /-- src/error.py:229-231 -/
  | missingOperandForOperator (operator expression : Arg)
  /-- src/error.py:233-240 -/
  | unknownOperator (operatorType operator expression : Arg)
  /-- src/error.py:242-244 -/
  | unknownExpression (expression : Arg)
  /-- src/error.py:246-248 -/
  | emptyFilterExpression
  /-- src/error.py:250-252 -/
  | innerComplexAttributeOrSquareBracket
  /-- src/error.py:254-256 -/
  | emptyComplexAttributeExpression (attribute_ : Arg)
  /-- src/error.py:258-260 -/
  | badAttributeName (attribute_ : Arg)
  /-- src/error.py:262-264 -/
  | badComparisonValue (value : Arg)
  /-- src/error.py:266-268 -/
  | nonCompatibleComparisonValue (value operator : Arg)
  /-- src/error.py:270-272 -/
  | badOperationPath
  /-- src/error.py:274-276 -/
  | unknownOperationTarget
  /-- src/error.py:278-280 -/
  | attributeCanNotBeModified
  /-- src/error.py:282-284 -/
  | complexFilterWithoutSubAttrForAddOp
  /-- src/error.py:286-288 -/
  | attributeCanNotBeDeleted
deriving DecidableEq, Repr

/-- The code and the context each class method hands over (src/error.py:79-286); `joined` is the `repr` of the joined
numbers, which is not used. -/
def Call.parts : Call → Nat × List (Str × Arg)
  | .badValueSyntax => (1, [])
  | .badType expected provided => (2, [("expected".toList, expected), ("provided".toList, provided)])
  | .base64EncodingRequired scimType => (3, [("scim_type".toList, scimType)])
  | .reservedKeyword keyword => (7, [("keyword".toList, keyword)])
  | .badUrl value => (8, [("value".toList, value)])
  | .multiplePrimaryValues ns joined => (9, [("primary_entries".toList, entries ns joined)])
  | .missingRequiredHeader header => (10, [("header".toList, header)])
  | .mustBeEqualTo value => (11, [("value".toList, value)])
  | .badErrorStatus provided => (12, [("provided".toList, provided)])
  | .errorStatusMismatch responseStatus bodyStatus => (13, [("response_status".toList, responseStatus), ("body_status".toList, bodyStatus)])
  | .mustBeOneOf expectedValues provided => (14, [("expected_values".toList, expectedValues), ("provided".toList, provided)])
  | .missing => (15, [])
  | .badStatusCode expected provided => (16, [("expected".toList, expected), ("provided".toList, provided)])
  | .resourceTypeMismatch resourceType provided => (17, [("resource_type".toList, resourceType), ("provided".toList, provided)])
  | .restrictedOrNotRequested => (19, [])
  | .tooManyResults must => (21, [("must".toList, must)])
  | .totalResultsMismatch totalResults nResources => (22, [("total_results".toList, totalResults), ("n_resources".toList, nResources)])
  | .tooLittleResults must => (23, [("must".toList, must)])
  | .responseValueDoesNotCorrespondToParameter responseKey responseValue queryParamName queryParamValue reason => (24, [("response_key".toList, responseKey), ("response_value".toList, responseValue), ("query_param_name".toList, queryParamName), ("query_param_value".toList, queryParamValue), ("reason".toList, reason)])
  | .includedResourceDoesNotMatchFilter => (25, [])
  | .resourcesNotSorted => (26, [])
  | .unknownSchema => (27, [])
  | .missingMainSchema => (28, [])
  | .missingSchemaExtension extension => (29, [("extension".toList, extension)])
  | .canNotBeUsedTogether other => (30, [("other".toList, other)])
  | .complexSubAttribute attr subAttr => (33, [("attr".toList, attr), ("sub_attr".toList, subAttr)])
  | .resourceTypeEndpointRequired => (34, [])
  | .resourceObjectEndpointRequired => (35, [])
  | .unknownResource => (36, [])
  | .tooManyOperations max => (37, [("max".toList, max)])
  | .tooManyErrors max => (38, [("max".toList, max)])
  | .notSupported => (39, [])
  | .bracketNotOpenedOrClosed => (100, [])
  | .complexAttributeBracketNotOpenedOrClosed => (102, [])
  | .missingOperandForOperator operator expression => (104, [("operator".toList, operator), ("expression".toList, expression)])
  | .unknownOperator operatorType operator expression => (105, [("operator_type".toList, operatorType), ("operator".toList, operator), ("expression".toList, expression)])
  | .unknownExpression expression => (106, [("expression".toList, expression)])
  | .emptyFilterExpression => (107, [])
  | .innerComplexAttributeOrSquareBracket => (109, [])
  | .emptyComplexAttributeExpression attribute_ => (110, [("attribute".toList, attribute_)])
  | .badAttributeName attribute_ => (111, [("attribute".toList, attribute_)])
  | .badComparisonValue value => (112, [("value".toList, value)])
  | .nonCompatibleComparisonValue value operator => (113, [("value".toList, value), ("operator".toList, operator)])
  | .badOperationPath => (300, [])
  | .unknownOperationTarget => (303, [])
  | .attributeCanNotBeModified => (304, [])
  | .complexFilterWithoutSubAttrForAddOp => (305, [])
  | .attributeCanNotBeDeleted => (306, [])

/-- What a class method returns. -/
def Call.make (c : Call) : PyM Error := mk c.parts.1 c.parts.2

/-! ## Equality -/

/-- What an error may be compared with: an error, a text or anything else (which is equal to no text). -/
inductive Obj where
  | err (e : Error)
  | text (s : Str)
  | other
deriving DecidableEq, Repr

/-- `x == s` for a text `s`: for an error `ValidationError.__eq__` (src/error.py:301-302). -/
def Obj.eqText (x : Obj) (s : Str) : Bool :=
  match x with
  | .err e => decide (s = e.message)
  | .text t => decide (t = s)
  | .other => false

/-- `ValidationError.__eq__` (src/error.py:301-302): `o == self._message`. -/
def Error.eq (e : Error) (o : Obj) : Bool := o.eqText e.message

end Scim.Messages
