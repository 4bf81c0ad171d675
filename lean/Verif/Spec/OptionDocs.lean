import Verif.Model.Payload
/-!
# The documented defaults of all rule options

Generated by tools/gen_options.py from the schema.json file of each rule: the "default" of each property.
-/
namespace Tsgolint.Options
open Tsgolint.Payload

/-- (directory of the rule, Go type, [(option, documented default)]). -/
def documented : List (String × String × List (String × Option Json)) := [
  ("consistent_return", "ConsistentReturnOptions", [("treatUndefinedAsUnspecified", some (.bool false))]),
  ("consistent_type_exports", "ConsistentTypeExportsOptions", [("fixMixedExportsWithInlineTypeSpecifier", some (.bool false))]),
  ("dot_notation", "DotNotationOptions", [("allowIndexSignaturePropertyAccess", some (.bool false)), ("allowKeywords", some (.bool true)), ("allowPattern", some (.str "")), ("allowPrivateClassPropertyAccess", some (.bool false)), ("allowProtectedClassPropertyAccess", some (.bool false))]),
  ("no_base_to_string", "NoBaseToStringOptions", [("checkUnknown", some (.bool false)), ("ignoredTypeNames", some (.arr [.str "Error", .str "RegExp", .str "URL", .str "URLSearchParams"]))]),
  ("no_confusing_void_expression", "NoConfusingVoidExpressionOptions", [("ignoreArrowShorthand", some (.bool false)), ("ignoreVoidOperator", some (.bool false)), ("ignoreVoidReturningFunctions", some (.bool false))]),
  ("no_deprecated", "NoDeprecatedOptions", [("allow", some (.arr []))]),
  ("no_duplicate_type_constituents", "NoDuplicateTypeConstituentsOptions", [("ignoreIntersections", some (.bool false)), ("ignoreUnions", some (.bool false))]),
  ("no_floating_promises", "NoFloatingPromisesOptions", [("allowForKnownSafeCalls", some (.arr [])), ("allowForKnownSafePromises", some (.arr [])), ("checkThenables", some (.bool false)), ("ignoreIIFE", some (.bool false)), ("ignoreVoid", some (.bool true))]),
  ("no_meaningless_void_operator", "NoMeaninglessVoidOperatorOptions", [("checkNever", some (.bool false))]),
  ("no_misused_promises", "ChecksVoidReturnOptions", [("arguments", some (.bool true)), ("attributes", some (.bool true)), ("inheritedMethods", some (.bool true)), ("properties", some (.bool true)), ("returns", some (.bool true)), ("variables", some (.bool true))]),
  ("no_misused_promises", "NoMisusedPromisesOptions", [("checksConditionals", some (.bool true)), ("checksSpreads", some (.bool true)), ("checksVoidReturn", some (.bool true))]),
  ("no_misused_spread", "NoMisusedSpreadOptions", [("allow", none)]),
  ("no_unnecessary_boolean_literal_compare", "NoUnnecessaryBooleanLiteralCompareOptions", [("allowComparingNullableBooleansToFalse", some (.bool true)), ("allowComparingNullableBooleansToTrue", some (.bool true))]),
  ("no_unnecessary_condition", "NoUnnecessaryConditionOptions", [("allowConstantLoopConditions", some (.str "never")), ("checkTypePredicates", some (.bool false))]),
  ("no_unnecessary_type_assertion", "NoUnnecessaryTypeAssertionOptions", [("checkLiteralConstAssertions", some (.bool false)), ("typesToIgnore", some (.arr []))]),
  ("no_unsafe_member_access", "NoUnsafeMemberAccessOptions", [("allowOptionalChaining", some (.bool false))]),
  ("only_throw_error", "OnlyThrowErrorOptions", [("allow", some (.arr [])), ("allowRethrowing", some (.bool true)), ("allowThrowingAny", some (.bool true)), ("allowThrowingUnknown", some (.bool true))]),
  ("prefer_nullish_coalescing", "IgnorePrimitivesOptions", [("bigint", some (.bool false)), ("boolean", some (.bool false)), ("number", some (.bool false)), ("string", some (.bool false))]),
  ("prefer_nullish_coalescing", "PreferNullishCoalescingOptions", [("ignoreBooleanCoercion", some (.bool false)), ("ignoreConditionalTests", some (.bool true)), ("ignoreIfStatements", some (.bool false)), ("ignoreMixedLogicalExpressions", some (.bool false)), ("ignoreTernaryTests", some (.bool false)), ("ignorePrimitives", none)]),
  ("prefer_optional_chain", "PreferOptionalChainOptions", [("allowPotentiallyUnsafeFixesThatModifyTheReturnTypeIKnowWhatImDoing", some (.bool false)), ("checkAny", some (.bool true)), ("checkBigInt", some (.bool true)), ("checkBoolean", some (.bool true)), ("checkNumber", some (.bool true)), ("checkString", some (.bool true)), ("checkUnknown", some (.bool true)), ("requireNullish", some (.bool false))]),
  ("prefer_promise_reject_errors", "PreferPromiseRejectErrorsOptions", [("allow", some (.arr [])), ("allowEmptyReject", some (.bool false)), ("allowThrowingAny", some (.bool false)), ("allowThrowingUnknown", some (.bool false))]),
  ("prefer_readonly", "PreferReadonlyOptions", [("onlyInlineLambdas", some (.bool false))]),
  ("prefer_readonly_parameter_types", "PreferReadonlyParameterTypesOptions", [("allow", some (.arr [])), ("checkParameterProperties", some (.bool true)), ("ignoreInferredTypes", some (.bool false)), ("treatMethodsAsReadonly", some (.bool false))]),
  ("prefer_string_starts_ends_with", "PreferStringStartsEndsWithOptions", [("allowSingleElementEquality", none)]),
  ("promise_function_async", "PromiseFunctionAsyncOptions", [("allowAny", some (.bool true)), ("allowedPromiseNames", some (.arr [])), ("checkArrowFunctions", some (.bool true)), ("checkFunctionDeclarations", some (.bool true)), ("checkFunctionExpressions", some (.bool true)), ("checkMethodDeclarations", some (.bool true))]),
  ("require_array_sort_compare", "RequireArraySortCompareOptions", [("ignoreStringArrays", some (.bool true))]),
  ("restrict_plus_operands", "RestrictPlusOperandsOptions", [("allowAny", some (.bool true)), ("allowBoolean", some (.bool true)), ("allowNullish", some (.bool true)), ("allowNumberAndString", some (.bool true)), ("allowRegExp", some (.bool true)), ("skipCompoundAssignments", some (.bool false))]),
  ("restrict_template_expressions", "RestrictTemplateExpressionsOptions", [("allowAny", some (.bool true)), ("allowArray", some (.bool false)), ("allowBoolean", some (.bool true)), ("allowNullish", some (.bool true)), ("allowNumber", some (.bool true)), ("allowRegExp", some (.bool true)), ("allowNever", some (.bool false)), ("allow", some (.arr [.obj [("from", .str "lib"), ("name", .arr [.str "Error", .str "URL", .str "URLSearchParams"])]]))]),
  ("strict_boolean_expressions", "StrictBooleanExpressionsOptions", [("allowAny", some (.bool false)), ("allowNullableBoolean", some (.bool false)), ("allowNullableNumber", some (.bool false)), ("allowNullableString", some (.bool false)), ("allowNullableEnum", some (.bool false)), ("allowNullableObject", some (.bool true)), ("allowString", some (.bool true)), ("allowNumber", some (.bool true))]),
  ("strict_void_return", "StrictVoidReturnOptions", [("allowReturnAny", some (.bool false))]),
  ("switch_exhaustiveness_check", "SwitchExhaustivenessCheckOptions", [("allowDefaultCaseForExhaustiveSwitch", some (.bool true)), ("considerDefaultExhaustiveForUnions", some (.bool false)), ("defaultCaseCommentPattern", none), ("requireDefaultForNonUnion", some (.bool false))]),
  ("unbound_method", "UnboundMethodOptions", [("ignoreStatic", some (.bool false))])]

end Tsgolint.Options
