import Verif.Spec.Messages

/-! The parts of the messages (written by `tools/gen_messages.py`). -/

namespace Scim.Messages

/-- the parts of the format string used by each class method -/
def Call.segs : Call → List Seg
  | .badValueSyntax => [.lit "bad value syntax".toList]
  | .badType _ _ => [.lit "expected type '".toList, .str "expected".toList, .lit "', got '".toList, .str "provided".toList, .lit "' instead".toList]
  | .base64EncodingRequired _ => [.lit "SCIM '".toList, .str "scim_type".toList, .lit "' values are expected to be encoded in base 64".toList]
  | .reservedKeyword _ => [.lit "'".toList, .str "keyword".toList, .lit "' is SCIM reserved keyword that MUST NOT occur in a attribute value".toList]
  | .badUrl _ => [.lit "'".toList, .str "value".toList, .lit "' is not a valid URL".toList]
  | .multiplePrimaryValues _ _ => [.lit "'primary' attribute, in multi-valued attribute item, set to 'True', MUST appear no more than once, but these items have it: ".toList, .str "primary_entries".toList]
  | .missingRequiredHeader _ => [.lit "header '".toList, .str "header".toList, .lit "' is required".toList]
  | .mustBeEqualTo _ => [.lit "must be equal to ".toList, .repr "value".toList]
  | .badErrorStatus _ => [.lit "error status should be greater or equal to 300 and lesser than 600, but provided ".toList, .str "provided".toList]
  | .errorStatusMismatch _ _ => [.lit "HTTP response status (".toList, .str "response_status".toList, .lit ") and error status in body (".toList, .str "body_status".toList, .lit ") must match".toList]
  | .mustBeOneOf _ _ => [.lit "value must be one of: ".toList, .str "expected_values".toList, .lit ", but provided '".toList, .str "provided".toList, .lit "'".toList]
  | .missing => [.lit "missing".toList]
  | .badStatusCode _ _ => [.lit "bad status code, expecting '".toList, .str "expected".toList, .lit "', but provided '".toList, .str "provided".toList, .lit "'".toList]
  | .resourceTypeMismatch _ _ => [.lit "meta.resourceType must match configured type `".toList, .str "resource_type".toList, .lit "`, but provided '".toList, .str "provided".toList, .lit "'".toList]
  | .restrictedOrNotRequested => [.lit "should not be returned".toList]
  | .tooManyResults _ => [.lit "too many results, must ".toList, .str "must".toList]
  | .totalResultsMismatch _ _ => [.lit "total results (".toList, .str "total_results".toList, .lit ") do not match number of resources (".toList, .str "n_resources".toList, .lit ")".toList]
  | .tooLittleResults _ => [.lit "too little results, must ".toList, .str "must".toList]
  | .responseValueDoesNotCorrespondToParameter _ _ _ _ _ => [.lit "response value of ".toList, .repr "response_key".toList, .lit " (".toList, .str "response_value".toList, .lit ") does not correspond to query parameter ".toList, .repr "query_param_name".toList, .lit " (".toList, .str "query_param_value".toList, .lit "): ".toList, .str "reason".toList]
  | .includedResourceDoesNotMatchFilter => [.lit "resource included in the result, but does not match the filter".toList]
  | .resourcesNotSorted => [.lit "resources are not sorted".toList]
  | .unknownSchema => [.lit "unknown schema".toList]
  | .missingMainSchema => [.lit "main schema not included".toList]
  | .missingSchemaExtension _ => [.lit "extension ".toList, .repr "extension".toList, .lit " is missing".toList]
  | .canNotBeUsedTogether _ => [.lit "can not be used together with ".toList, .repr "other".toList]
  | .complexSubAttribute _ _ => [.lit "complex sub-attribute ".toList, .repr "sub_attr".toList, .lit " of ".toList, .repr "attr".toList, .lit " can not be complex".toList]
  | .resourceTypeEndpointRequired => [.lit "resource type endpoint is required".toList]
  | .resourceObjectEndpointRequired => [.lit "resource object endpoint is required".toList]
  | .unknownResource => [.lit "unknown resource".toList]
  | .tooManyOperations _ => [.lit "too many operations (max ".toList, .str "max".toList, .lit ")".toList]
  | .tooManyErrors _ => [.lit "too many errors (max ".toList, .str "max".toList, .lit ")".toList]
  | .notSupported => [.lit "value or operation not supported".toList]
  | .bracketNotOpenedOrClosed => [.lit "one of brackets is not opened / closed".toList]
  | .complexAttributeBracketNotOpenedOrClosed => [.lit "one of complex attribute brackets is not opened / closed".toList]
  | .missingOperandForOperator _ _ => [.lit "missing operand for operator '".toList, .str "operator".toList, .lit "' in expression '".toList, .str "expression".toList, .lit "'".toList]
  | .unknownOperator _ _ _ => [.lit "unknown ".toList, .str "operator_type".toList, .lit " operator '".toList, .str "operator".toList, .lit "' in expression '".toList, .str "expression".toList, .lit "'".toList]
  | .unknownExpression _ => [.lit "unknown expression '".toList, .str "expression".toList, .lit "'".toList]
  | .emptyFilterExpression => [.lit "no expression or empty expression inside grouping operator".toList]
  | .innerComplexAttributeOrSquareBracket => [.lit "complex attribute can not contain inner complex attributes or square brackets".toList]
  | .emptyComplexAttributeExpression _ => [.lit "complex attribute ".toList, .repr "attribute".toList, .lit " has no expression".toList]
  | .badAttributeName _ => [.lit "attribute ".toList, .repr "attribute".toList, .lit " does not conform the rules".toList]
  | .badComparisonValue _ => [.lit "bad comparison value ".toList, .repr "value".toList]
  | .nonCompatibleComparisonValue _ _ => [.lit "comparison value ".toList, .repr "value".toList, .lit " is not compatible with ".toList, .repr "operator".toList, .lit " operator".toList]
  | .badOperationPath => [.lit "bad operation path".toList]
  | .unknownOperationTarget => [.lit "unknown operation target".toList]
  | .attributeCanNotBeModified => [.lit "attribute can not be modified".toList]
  | .complexFilterWithoutSubAttrForAddOp => [.lit "can not use complex filter without sub-attribute specified for 'add' operation".toList]
  | .attributeCanNotBeDeleted => [.lit "attribute can not be deleted".toList]

end Scim.Messages
