import Verif.Model.Messages

/-!
# The messages, written out (C102)

Written by `tools/gen_messages.py`.
-/

namespace Scim.Messages

/-- the code of each kind of error -/
def Call.code : Call → Nat
  | .badValueSyntax => 1
  | .badType _ _ => 2
  | .base64EncodingRequired _ => 3
  | .reservedKeyword _ => 7
  | .badUrl _ => 8
  | .multiplePrimaryValues _ _ => 9
  | .missingRequiredHeader _ => 10
  | .mustBeEqualTo _ => 11
  | .badErrorStatus _ => 12
  | .errorStatusMismatch _ _ => 13
  | .mustBeOneOf _ _ => 14
  | .missing => 15
  | .badStatusCode _ _ => 16
  | .resourceTypeMismatch _ _ => 17
  | .restrictedOrNotRequested => 19
  | .tooManyResults _ => 21
  | .totalResultsMismatch _ _ => 22
  | .tooLittleResults _ => 23
  | .responseValueDoesNotCorrespondToParameter _ _ _ _ _ => 24
  | .includedResourceDoesNotMatchFilter => 25
  | .resourcesNotSorted => 26
  | .unknownSchema => 27
  | .missingMainSchema => 28
  | .missingSchemaExtension _ => 29
  | .canNotBeUsedTogether _ => 30
  | .complexSubAttribute _ _ => 33
  | .resourceTypeEndpointRequired => 34
  | .resourceObjectEndpointRequired => 35
  | .unknownResource => 36
  | .tooManyOperations _ => 37
  | .tooManyErrors _ => 38
  | .notSupported => 39
  | .bracketNotOpenedOrClosed => 100
  | .complexAttributeBracketNotOpenedOrClosed => 102
  | .missingOperandForOperator _ _ => 104
  | .unknownOperator _ _ _ => 105
  | .unknownExpression _ => 106
  | .emptyFilterExpression => 107
  | .innerComplexAttributeOrSquareBracket => 109
  | .emptyComplexAttributeExpression _ => 110
  | .badAttributeName _ => 111
  | .badComparisonValue _ => 112
  | .nonCompatibleComparisonValue _ _ => 113
  | .badOperationPath => 300
  | .unknownOperationTarget => 303
  | .attributeCanNotBeModified => 304
  | .complexFilterWithoutSubAttrForAddOp => 305
  | .attributeCanNotBeDeleted => 306

/-- the values an error is about, under their names -/
def Call.values : Call → List (String × Arg)
  | .badValueSyntax => []
  | .badType expected provided => [("expected", expected), ("provided", provided)]
  | .base64EncodingRequired scimType => [("scim_type", scimType)]
  | .reservedKeyword keyword => [("keyword", keyword)]
  | .badUrl value => [("value", value)]
  | .multiplePrimaryValues ns joined => [("primary_entries", entries ns joined)]
  | .missingRequiredHeader header => [("header", header)]
  | .mustBeEqualTo value => [("value", value)]
  | .badErrorStatus provided => [("provided", provided)]
  | .errorStatusMismatch responseStatus bodyStatus => [("response_status", responseStatus), ("body_status", bodyStatus)]
  | .mustBeOneOf expectedValues provided => [("expected_values", expectedValues), ("provided", provided)]
  | .missing => []
  | .badStatusCode expected provided => [("expected", expected), ("provided", provided)]
  | .resourceTypeMismatch resourceType provided => [("resource_type", resourceType), ("provided", provided)]
  | .restrictedOrNotRequested => []
  | .tooManyResults must => [("must", must)]
  | .totalResultsMismatch totalResults nResources => [("total_results", totalResults), ("n_resources", nResources)]
  | .tooLittleResults must => [("must", must)]
  | .responseValueDoesNotCorrespondToParameter responseKey responseValue queryParamName queryParamValue reason => [("response_key", responseKey), ("response_value", responseValue), ("query_param_name", queryParamName), ("query_param_value", queryParamValue), ("reason", reason)]
  | .includedResourceDoesNotMatchFilter => []
  | .resourcesNotSorted => []
  | .unknownSchema => []
  | .missingMainSchema => []
  | .missingSchemaExtension extension => [("extension", extension)]
  | .canNotBeUsedTogether other => [("other", other)]
  | .complexSubAttribute attr subAttr => [("attr", attr), ("sub_attr", subAttr)]
  | .resourceTypeEndpointRequired => []
  | .resourceObjectEndpointRequired => []
  | .unknownResource => []
  | .tooManyOperations max => [("max", max)]
  | .tooManyErrors max => [("max", max)]
  | .notSupported => []
  | .bracketNotOpenedOrClosed => []
  | .complexAttributeBracketNotOpenedOrClosed => []
  | .missingOperandForOperator operator expression => [("operator", operator), ("expression", expression)]
  | .unknownOperator operatorType operator expression => [("operator_type", operatorType), ("operator", operator), ("expression", expression)]
  | .unknownExpression expression => [("expression", expression)]
  | .emptyFilterExpression => []
  | .innerComplexAttributeOrSquareBracket => []
  | .emptyComplexAttributeExpression attribute_ => [("attribute", attribute_)]
  | .badAttributeName attribute_ => [("attribute", attribute_)]
  | .badComparisonValue value => [("value", value)]
  | .nonCompatibleComparisonValue value operator => [("value", value), ("operator", operator)]
  | .badOperationPath => []
  | .unknownOperationTarget => []
  | .attributeCanNotBeModified => []
  | .complexFilterWithoutSubAttrForAddOp => []
  | .attributeCanNotBeDeleted => []

/-- the message of each kind of error -/
def Call.text : Call → Str
  | .badValueSyntax => List.flatten ["bad value syntax".toList]
  | .badType expected provided => List.flatten ["expected type '".toList, expected.str, "', got '".toList, provided.str, "' instead".toList]
  | .base64EncodingRequired scimType => List.flatten ["SCIM '".toList, scimType.str, "' values are expected to be encoded in base 64".toList]
  | .reservedKeyword keyword => List.flatten ["'".toList, keyword.str, "' is SCIM reserved keyword that MUST NOT occur in a attribute value".toList]
  | .badUrl value => List.flatten ["'".toList, value.str, "' is not a valid URL".toList]
  | .multiplePrimaryValues ns _ => List.flatten ["'primary' attribute, in multi-valued attribute item, set to 'True', MUST appear no more than once, but these items have it: ".toList, joinComma (ns.map fun n => (toString n).toList)]
  | .missingRequiredHeader header => List.flatten ["header '".toList, header.str, "' is required".toList]
  | .mustBeEqualTo value => List.flatten ["must be equal to ".toList, value.repr]
  | .badErrorStatus provided => List.flatten ["error status should be greater or equal to 300 and lesser than 600, but provided ".toList, provided.str]
  | .errorStatusMismatch responseStatus bodyStatus => List.flatten ["HTTP response status (".toList, responseStatus.str, ") and error status in body (".toList, bodyStatus.str, ") must match".toList]
  | .mustBeOneOf expectedValues provided => List.flatten ["value must be one of: ".toList, expectedValues.str, ", but provided '".toList, provided.str, "'".toList]
  | .missing => List.flatten ["missing".toList]
  | .badStatusCode expected provided => List.flatten ["bad status code, expecting '".toList, expected.str, "', but provided '".toList, provided.str, "'".toList]
  | .resourceTypeMismatch resourceType provided => List.flatten ["meta.resourceType must match configured type `".toList, resourceType.str, "`, but provided '".toList, provided.str, "'".toList]
  | .restrictedOrNotRequested => List.flatten ["should not be returned".toList]
  | .tooManyResults must => List.flatten ["too many results, must ".toList, must.str]
  | .totalResultsMismatch totalResults nResources => List.flatten ["total results (".toList, totalResults.str, ") do not match number of resources (".toList, nResources.str, ")".toList]
  | .tooLittleResults must => List.flatten ["too little results, must ".toList, must.str]
  | .responseValueDoesNotCorrespondToParameter responseKey responseValue queryParamName queryParamValue reason => List.flatten ["response value of ".toList, responseKey.repr, " (".toList, responseValue.str, ") does not correspond to query parameter ".toList, queryParamName.repr, " (".toList, queryParamValue.str, "): ".toList, reason.str]
  | .includedResourceDoesNotMatchFilter => List.flatten ["resource included in the result, but does not match the filter".toList]
  | .resourcesNotSorted => List.flatten ["resources are not sorted".toList]
  | .unknownSchema => List.flatten ["unknown schema".toList]
  | .missingMainSchema => List.flatten ["main schema not included".toList]
  | .missingSchemaExtension extension => List.flatten ["extension ".toList, extension.repr, " is missing".toList]
  | .canNotBeUsedTogether other => List.flatten ["can not be used together with ".toList, other.repr]
  | .complexSubAttribute attr subAttr => List.flatten ["complex sub-attribute ".toList, subAttr.repr, " of ".toList, attr.repr, " can not be complex".toList]
  | .resourceTypeEndpointRequired => List.flatten ["resource type endpoint is required".toList]
  | .resourceObjectEndpointRequired => List.flatten ["resource object endpoint is required".toList]
  | .unknownResource => List.flatten ["unknown resource".toList]
  | .tooManyOperations max => List.flatten ["too many operations (max ".toList, max.str, ")".toList]
  | .tooManyErrors max => List.flatten ["too many errors (max ".toList, max.str, ")".toList]
  | .notSupported => List.flatten ["value or operation not supported".toList]
  | .bracketNotOpenedOrClosed => List.flatten ["one of brackets is not opened / closed".toList]
  | .complexAttributeBracketNotOpenedOrClosed => List.flatten ["one of complex attribute brackets is not opened / closed".toList]
  | .missingOperandForOperator operator expression => List.flatten ["missing operand for operator '".toList, operator.str, "' in expression '".toList, expression.str, "'".toList]
  | .unknownOperator operatorType operator expression => List.flatten ["unknown ".toList, operatorType.str, " operator '".toList, operator.str, "' in expression '".toList, expression.str, "'".toList]
  | .unknownExpression expression => List.flatten ["unknown expression '".toList, expression.str, "'".toList]
  | .emptyFilterExpression => List.flatten ["no expression or empty expression inside grouping operator".toList]
  | .innerComplexAttributeOrSquareBracket => List.flatten ["complex attribute can not contain inner complex attributes or square brackets".toList]
  | .emptyComplexAttributeExpression attribute_ => List.flatten ["complex attribute ".toList, attribute_.repr, " has no expression".toList]
  | .badAttributeName attribute_ => List.flatten ["attribute ".toList, attribute_.repr, " does not conform the rules".toList]
  | .badComparisonValue value => List.flatten ["bad comparison value ".toList, value.repr]
  | .nonCompatibleComparisonValue value operator => List.flatten ["comparison value ".toList, value.repr, " is not compatible with ".toList, operator.repr, " operator".toList]
  | .badOperationPath => List.flatten ["bad operation path".toList]
  | .unknownOperationTarget => List.flatten ["unknown operation target".toList]
  | .attributeCanNotBeModified => List.flatten ["attribute can not be modified".toList]
  | .complexFilterWithoutSubAttrForAddOp => List.flatten ["can not use complex filter without sub-attribute specified for 'add' operation".toList]
  | .attributeCanNotBeDeleted => List.flatten ["attribute can not be deleted".toList]

/-- a value is a text: its `repr` begins with a quotation mark -/
def Arg.IsText (a : Arg) : Prop := a.repr.head? = some '\'' ∨ a.repr.head? = some '"'

/-- how the program calls the class methods: names of attributes are texts, and operators are unary or binary (src/filter.py:490-494, 536-540) -/
def Call.Proper : Call → Prop
  | .emptyComplexAttributeExpression a => a.IsText
  | .badAttributeName a => a.IsText
  | .unknownOperator t _ _ => t.str = "unary".toList ∨ t.str = "binary".toList
  | _ => True

end Scim.Messages
