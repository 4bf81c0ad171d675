import Verif.Model.Options
/-!
# The option types of all rules

Generated by tools/gen_options.py from /repo/internal/rules/*/options.go; each definition names its file and lines.
-/
namespace Tsgolint.Options

/-- /repo/internal/rules/consistent_return/options.go:7-29 `ConsistentReturnOptions` and its `UnmarshalJSON`. -/
def consistentReturnOptions : Schema := [
  ⟨"treatUndefinedAsUnspecified", .bool, (some (.bool false))⟩]

/-- /repo/internal/rules/consistent_type_exports/options.go:7-29 `ConsistentTypeExportsOptions` and its `UnmarshalJSON`. -/
def consistentTypeExportsOptions : Schema := [
  ⟨"fixMixedExportsWithInlineTypeSpecifier", .bool, (some (.bool false))⟩]

/-- /repo/internal/rules/dot_notation/options.go:7-55 `DotNotationOptions` and its `UnmarshalJSON`. -/
def dotNotationOptions : Schema := [
  ⟨"allowIndexSignaturePropertyAccess", .bool, (some (.bool false))⟩,
  ⟨"allowKeywords", .bool, (some (.bool true))⟩,
  ⟨"allowPattern", .str, (some (.str ""))⟩,
  ⟨"allowPrivateClassPropertyAccess", .bool, (some (.bool false))⟩,
  ⟨"allowProtectedClassPropertyAccess", .bool, (some (.bool false))⟩]

/-- /repo/internal/rules/no_base_to_string/options.go:7-39 `NoBaseToStringOptions` and its `UnmarshalJSON`. -/
def noBaseToStringOptions : Schema := [
  ⟨"checkUnknown", .bool, (some (.bool false))⟩,
  ⟨"ignoredTypeNames", .strs, (some (.strs ["Error", "RegExp", "URL", "URLSearchParams"]))⟩]

/-- /repo/internal/rules/no_confusing_void_expression/options.go:7-42 `NoConfusingVoidExpressionOptions` and its `UnmarshalJSON`. -/
def noConfusingVoidExpressionOptions : Schema := [
  ⟨"ignoreArrowShorthand", .bool, (some (.bool false))⟩,
  ⟨"ignoreVoidOperator", .bool, (some (.bool false))⟩,
  ⟨"ignoreVoidReturningFunctions", .bool, (some (.bool false))⟩]

/-- /repo/internal/rules/no_deprecated/options.go:8-29 `NoDeprecatedOptions` and its `UnmarshalJSON`. -/
def noDeprecatedOptions : Schema := [
  ⟨"allow", .specs, (some (.specs []))⟩]

/-- /repo/internal/rules/no_duplicate_type_constituents/options.go:7-34 `NoDuplicateTypeConstituentsOptions` and its `UnmarshalJSON`. -/
def noDuplicateTypeConstituentsOptions : Schema := [
  ⟨"ignoreIntersections", .bool, (some (.bool false))⟩,
  ⟨"ignoreUnions", .bool, (some (.bool false))⟩]

/-- /repo/internal/rules/no_floating_promises/options.go:8-55 `NoFloatingPromisesOptions` and its `UnmarshalJSON`. -/
def noFloatingPromisesOptions : Schema := [
  ⟨"allowForKnownSafeCalls", .specs, (some (.specs []))⟩,
  ⟨"allowForKnownSafePromises", .specs, (some (.specs []))⟩,
  ⟨"checkThenables", .bool, (some (.bool false))⟩,
  ⟨"ignoreIIFE", .bool, (some (.bool false))⟩,
  ⟨"ignoreVoid", .bool, (some (.bool true))⟩]

/-- /repo/internal/rules/no_meaningless_void_operator/options.go:7-28 `NoMeaninglessVoidOperatorOptions` and its `UnmarshalJSON`. -/
def noMeaninglessVoidOperatorOptions : Schema := [
  ⟨"checkNever", .bool, (some (.bool false))⟩]

/-- /repo/internal/rules/no_misused_promises/options.go:7-58 `ChecksVoidReturnOptions` and its `UnmarshalJSON`. -/
def checksVoidReturnOptions : Schema := [
  ⟨"arguments", .bool, (some (.bool true))⟩,
  ⟨"attributes", .bool, (some (.bool true))⟩,
  ⟨"inheritedMethods", .bool, (some (.bool true))⟩,
  ⟨"properties", .bool, (some (.bool true))⟩,
  ⟨"returns", .bool, (some (.bool true))⟩,
  ⟨"variables", .bool, (some (.bool true))⟩]

/-- /repo/internal/rules/no_misused_promises/options.go:60-93 `NoMisusedPromisesOptions` and its `UnmarshalJSON`. -/
def noMisusedPromisesOptions : Schema := [
  ⟨"checksConditionals", .bool, (some (.bool true))⟩,
  ⟨"checksSpreads", .bool, (some (.bool true))⟩,
  ⟨"checksVoidReturn", .any, (some (.any (some (.bool true))))⟩]

/-- /repo/internal/rules/no_misused_spread/options.go:7-10 `NoMisusedSpreadOptions` and its `UnmarshalJSON`. -/
def noMisusedSpreadOptions : Schema := [
  ⟨"allow", .specs, none⟩]

/-- /repo/internal/rules/no_unnecessary_boolean_literal_compare/options.go:7-36 `NoUnnecessaryBooleanLiteralCompareOptions` and its `UnmarshalJSON`. -/
def noUnnecessaryBooleanLiteralCompareOptions : Schema := [
  ⟨"allowComparingNullableBooleansToFalse", .bool, (some (.bool true))⟩,
  ⟨"allowComparingNullableBooleansToTrue", .bool, (some (.bool true))⟩]

/-- /repo/internal/rules/no_unnecessary_condition/options.go:7-35 `NoUnnecessaryConditionOptions` and its `UnmarshalJSON`. -/
def noUnnecessaryConditionOptions : Schema := [
  ⟨"allowConstantLoopConditions", .any, (some (.any (some (.str "never"))))⟩,
  ⟨"checkTypePredicates", .bool, (some (.bool false))⟩]

/-- /repo/internal/rules/no_unnecessary_type_assertion/options.go:7-34 `NoUnnecessaryTypeAssertionOptions` and its `UnmarshalJSON`. -/
def noUnnecessaryTypeAssertionOptions : Schema := [
  ⟨"checkLiteralConstAssertions", .bool, (some (.bool false))⟩,
  ⟨"typesToIgnore", .strs, (some (.strs []))⟩]

/-- /repo/internal/rules/no_unsafe_member_access/options.go:7-28 `NoUnsafeMemberAccessOptions` and its `UnmarshalJSON`. -/
def noUnsafeMemberAccessOptions : Schema := [
  ⟨"allowOptionalChaining", .bool, (some (.bool false))⟩]

/-- /repo/internal/rules/only_throw_error/options.go:8-47 `OnlyThrowErrorOptions` and its `UnmarshalJSON`. -/
def onlyThrowErrorOptions : Schema := [
  ⟨"allow", .specs, (some (.specs []))⟩,
  ⟨"allowRethrowing", .bool, (some (.bool true))⟩,
  ⟨"allowThrowingAny", .bool, (some (.bool true))⟩,
  ⟨"allowThrowingUnknown", .bool, (some (.bool true))⟩]

/-- /repo/internal/rules/prefer_nullish_coalescing/options.go:8-47 `IgnorePrimitivesOptions` and its `UnmarshalJSON`. -/
def ignorePrimitivesOptions : Schema := [
  ⟨"bigint", .bool, (some (.bool false))⟩,
  ⟨"boolean", .bool, (some (.bool false))⟩,
  ⟨"number", .bool, (some (.bool false))⟩,
  ⟨"string", .bool, (some (.bool false))⟩]

/-- /repo/internal/rules/prefer_nullish_coalescing/options.go:49-101 `PreferNullishCoalescingOptions` and its `UnmarshalJSON`. -/
def preferNullishCoalescingOptions : Schema := [
  ⟨"ignoreBooleanCoercion", .bool, (some (.bool false))⟩,
  ⟨"ignoreConditionalTests", .bool, (some (.bool true))⟩,
  ⟨"ignoreIfStatements", .bool, (some (.bool false))⟩,
  ⟨"ignoreMixedLogicalExpressions", .bool, (some (.bool false))⟩,
  ⟨"ignorePrimitives", (.boolOr (unmarshal ignorePrimitivesOptions)), none⟩,
  ⟨"ignoreTernaryTests", .bool, (some (.bool false))⟩]

/-- /repo/internal/rules/prefer_optional_chain/options.go:7-78 `PreferOptionalChainOptions` and its `UnmarshalJSON`. -/
def preferOptionalChainOptions : Schema := [
  ⟨"allowPotentiallyUnsafeFixesThatModifyTheReturnTypeIKnowWhatImDoing", .bool, (some (.bool false))⟩,
  ⟨"checkAny", .bool, (some (.bool true))⟩,
  ⟨"checkBigInt", .bool, (some (.bool true))⟩,
  ⟨"checkBoolean", .bool, (some (.bool true))⟩,
  ⟨"checkNumber", .bool, (some (.bool true))⟩,
  ⟨"checkString", .bool, (some (.bool true))⟩,
  ⟨"checkUnknown", .bool, (some (.bool true))⟩,
  ⟨"requireNullish", .bool, (some (.bool false))⟩]

/-- /repo/internal/rules/prefer_promise_reject_errors/options.go:8-48 `PreferPromiseRejectErrorsOptions` and its `UnmarshalJSON`. -/
def preferPromiseRejectErrorsOptions : Schema := [
  ⟨"allow", .specs, (some (.specs []))⟩,
  ⟨"allowEmptyReject", .bool, (some (.bool false))⟩,
  ⟨"allowThrowingAny", .bool, (some (.bool false))⟩,
  ⟨"allowThrowingUnknown", .bool, (some (.bool false))⟩]

/-- /repo/internal/rules/prefer_readonly/options.go:7-29 `PreferReadonlyOptions` and its `UnmarshalJSON`. -/
def preferReadonlyOptions : Schema := [
  ⟨"onlyInlineLambdas", .bool, (some (.bool false))⟩]

/-- /repo/internal/rules/prefer_readonly_parameter_types/options.go:8-47 `PreferReadonlyParameterTypesOptions` and its `UnmarshalJSON`. -/
def preferReadonlyParameterTypesOptions : Schema := [
  ⟨"allow", .specs, (some (.specs []))⟩,
  ⟨"checkParameterProperties", .bool, (some (.bool true))⟩,
  ⟨"ignoreInferredTypes", .bool, (some (.bool false))⟩,
  ⟨"treatMethodsAsReadonly", .bool, (some (.bool false))⟩]

/-- /repo/internal/rules/prefer_string_starts_ends_with/options.go:9-12 `PreferStringStartsEndsWithOptions` and its `UnmarshalJSON`. -/
def preferStringStartsEndsWithOptions : Schema := [
  ⟨"allowSingleElementEquality", (.enumPtr ["always", "never"]), none⟩]

/-- /repo/internal/rules/promise_function_async/options.go:7-61 `PromiseFunctionAsyncOptions` and its `UnmarshalJSON`. -/
def promiseFunctionAsyncOptions : Schema := [
  ⟨"allowAny", .bool, (some (.bool true))⟩,
  ⟨"allowedPromiseNames", .strs, (some (.strs []))⟩,
  ⟨"checkArrowFunctions", .bool, (some (.bool true))⟩,
  ⟨"checkFunctionDeclarations", .bool, (some (.bool true))⟩,
  ⟨"checkFunctionExpressions", .bool, (some (.bool true))⟩,
  ⟨"checkMethodDeclarations", .bool, (some (.bool true))⟩]

/-- /repo/internal/rules/require_array_sort_compare/options.go:7-28 `RequireArraySortCompareOptions` and its `UnmarshalJSON`. -/
def requireArraySortCompareOptions : Schema := [
  ⟨"ignoreStringArrays", .bool, (some (.bool true))⟩]

/-- /repo/internal/rules/restrict_plus_operands/options.go:7-58 `RestrictPlusOperandsOptions` and its `UnmarshalJSON`. -/
def restrictPlusOperandsOptions : Schema := [
  ⟨"allowAny", .bool, (some (.bool true))⟩,
  ⟨"allowBoolean", .bool, (some (.bool true))⟩,
  ⟨"allowNullish", .bool, (some (.bool true))⟩,
  ⟨"allowNumberAndString", .bool, (some (.bool true))⟩,
  ⟨"allowRegExp", .bool, (some (.bool true))⟩,
  ⟨"skipCompoundAssignments", .bool, (some (.bool false))⟩]

/-- /repo/internal/rules/restrict_template_expressions/options.go:8-76 `RestrictTemplateExpressionsOptions` and its `UnmarshalJSON`. -/
def restrictTemplateExpressionsOptions : Schema := [
  ⟨"allow", .specs, (some (.specs [⟨.lib, ["Error", "URL", "URLSearchParams"], "", ""⟩]))⟩,
  ⟨"allowAny", .bool, (some (.bool true))⟩,
  ⟨"allowArray", .bool, (some (.bool false))⟩,
  ⟨"allowBoolean", .bool, (some (.bool true))⟩,
  ⟨"allowNever", .bool, (some (.bool false))⟩,
  ⟨"allowNullish", .bool, (some (.bool true))⟩,
  ⟨"allowNumber", .bool, (some (.bool true))⟩,
  ⟨"allowRegExp", .bool, (some (.bool true))⟩]

/-- /repo/internal/rules/strict_boolean_expressions/options.go:7-71 `StrictBooleanExpressionsOptions` and its `UnmarshalJSON`. -/
def strictBooleanExpressionsOptions : Schema := [
  ⟨"allowAny", .bool, (some (.bool false))⟩,
  ⟨"allowNullableBoolean", .bool, (some (.bool false))⟩,
  ⟨"allowNullableEnum", .bool, (some (.bool false))⟩,
  ⟨"allowNullableNumber", .bool, (some (.bool false))⟩,
  ⟨"allowNullableObject", .bool, (some (.bool true))⟩,
  ⟨"allowNullableString", .bool, (some (.bool false))⟩,
  ⟨"allowNumber", .bool, (some (.bool true))⟩,
  ⟨"allowString", .bool, (some (.bool true))⟩]

/-- /repo/internal/rules/strict_void_return/options.go:7-28 `StrictVoidReturnOptions` and its `UnmarshalJSON`. -/
def strictVoidReturnOptions : Schema := [
  ⟨"allowReturnAny", .bool, (some (.bool false))⟩]

/-- /repo/internal/rules/switch_exhaustiveness_check/options.go:7-44 `SwitchExhaustivenessCheckOptions` and its `UnmarshalJSON`. -/
def switchExhaustivenessCheckOptions : Schema := [
  ⟨"allowDefaultCaseForExhaustiveSwitch", .bool, (some (.bool true))⟩,
  ⟨"considerDefaultExhaustiveForUnions", .bool, (some (.bool false))⟩,
  ⟨"defaultCaseCommentPattern", .strPtr, none⟩,
  ⟨"requireDefaultForNonUnion", .bool, (some (.bool false))⟩]

/-- /repo/internal/rules/unbound_method/options.go:7-28 `UnboundMethodOptions` and its `UnmarshalJSON`. -/
def unboundMethodOptions : Schema := [
  ⟨"ignoreStatic", .bool, (some (.bool false))⟩]

/-- The option types of the rules, by directory of the rule. (`return_await` is an enumeration, see `returnAwait`.) -/
def ruleOptions : List (String × String × Schema) := [
  ("consistent_return", "ConsistentReturnOptions", consistentReturnOptions),
  ("consistent_type_exports", "ConsistentTypeExportsOptions", consistentTypeExportsOptions),
  ("dot_notation", "DotNotationOptions", dotNotationOptions),
  ("no_base_to_string", "NoBaseToStringOptions", noBaseToStringOptions),
  ("no_confusing_void_expression", "NoConfusingVoidExpressionOptions", noConfusingVoidExpressionOptions),
  ("no_deprecated", "NoDeprecatedOptions", noDeprecatedOptions),
  ("no_duplicate_type_constituents", "NoDuplicateTypeConstituentsOptions", noDuplicateTypeConstituentsOptions),
  ("no_floating_promises", "NoFloatingPromisesOptions", noFloatingPromisesOptions),
  ("no_meaningless_void_operator", "NoMeaninglessVoidOperatorOptions", noMeaninglessVoidOperatorOptions),
  ("no_misused_promises", "ChecksVoidReturnOptions", checksVoidReturnOptions),
  ("no_misused_promises", "NoMisusedPromisesOptions", noMisusedPromisesOptions),
  ("no_misused_spread", "NoMisusedSpreadOptions", noMisusedSpreadOptions),
  ("no_unnecessary_boolean_literal_compare", "NoUnnecessaryBooleanLiteralCompareOptions", noUnnecessaryBooleanLiteralCompareOptions),
  ("no_unnecessary_condition", "NoUnnecessaryConditionOptions", noUnnecessaryConditionOptions),
  ("no_unnecessary_type_assertion", "NoUnnecessaryTypeAssertionOptions", noUnnecessaryTypeAssertionOptions),
  ("no_unsafe_member_access", "NoUnsafeMemberAccessOptions", noUnsafeMemberAccessOptions),
  ("only_throw_error", "OnlyThrowErrorOptions", onlyThrowErrorOptions),
  ("prefer_nullish_coalescing", "IgnorePrimitivesOptions", ignorePrimitivesOptions),
  ("prefer_nullish_coalescing", "PreferNullishCoalescingOptions", preferNullishCoalescingOptions),
  ("prefer_optional_chain", "PreferOptionalChainOptions", preferOptionalChainOptions),
  ("prefer_promise_reject_errors", "PreferPromiseRejectErrorsOptions", preferPromiseRejectErrorsOptions),
  ("prefer_readonly", "PreferReadonlyOptions", preferReadonlyOptions),
  ("prefer_readonly_parameter_types", "PreferReadonlyParameterTypesOptions", preferReadonlyParameterTypesOptions),
  ("prefer_string_starts_ends_with", "PreferStringStartsEndsWithOptions", preferStringStartsEndsWithOptions),
  ("promise_function_async", "PromiseFunctionAsyncOptions", promiseFunctionAsyncOptions),
  ("require_array_sort_compare", "RequireArraySortCompareOptions", requireArraySortCompareOptions),
  ("restrict_plus_operands", "RestrictPlusOperandsOptions", restrictPlusOperandsOptions),
  ("restrict_template_expressions", "RestrictTemplateExpressionsOptions", restrictTemplateExpressionsOptions),
  ("strict_boolean_expressions", "StrictBooleanExpressionsOptions", strictBooleanExpressionsOptions),
  ("strict_void_return", "StrictVoidReturnOptions", strictVoidReturnOptions),
  ("switch_exhaustiveness_check", "SwitchExhaustivenessCheckOptions", switchExhaustivenessCheckOptions),
  ("unbound_method", "UnboundMethodOptions", unboundMethodOptions)]

end Tsgolint.Options
