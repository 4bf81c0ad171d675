/-!
# The names of the rules (generated by tools/gen_rules.py)
-/
namespace Tsgolint.Cli

/-- /repo/cmd/tsgolint/main.go:162-222 `allRules`: the names (`Name:` in the rules' packages), in that order -/
def ruleNames : List String := [
  "await-thenable",
  "consistent-return",
  "consistent-type-exports",
  "dot-notation",
  "no-array-delete",
  "no-base-to-string",
  "no-confusing-void-expression",
  "no-deprecated",
  "no-duplicate-type-constituents",
  "no-floating-promises",
  "no-for-in-array",
  "no-implied-eval",
  "no-meaningless-void-operator",
  "no-misused-promises",
  "no-misused-spread",
  "no-mixed-enums",
  "no-redundant-type-constituents",
  "no-unnecessary-boolean-literal-compare",
  "no-unnecessary-condition",
  "no-unnecessary-qualifier",
  "no-unnecessary-template-expression",
  "no-unnecessary-type-conversion",
  "no-unnecessary-type-arguments",
  "no-unnecessary-type-parameters",
  "no-unnecessary-type-assertion",
  "no-useless-default-assignment",
  "no-unsafe-argument",
  "no-unsafe-assignment",
  "no-unsafe-call",
  "no-unsafe-enum-comparison",
  "no-unsafe-member-access",
  "no-unsafe-return",
  "no-unsafe-type-assertion",
  "no-unsafe-unary-minus",
  "non-nullable-type-assertion-style",
  "only-throw-error",
  "prefer-find",
  "prefer-includes",
  "prefer-optional-chain",
  "prefer-nullish-coalescing",
  "prefer-promise-reject-errors",
  "prefer-readonly-parameter-types",
  "prefer-regexp-exec",
  "prefer-readonly",
  "prefer-reduce-type-parameter",
  "prefer-return-this-type",
  "prefer-string-starts-ends-with",
  "promise-function-async",
  "related-getter-setter-pairs",
  "require-array-sort-compare",
  "require-await",
  "restrict-plus-operands",
  "restrict-template-expressions",
  "return-await",
  "strict-boolean-expressions",
  "strict-void-return",
  "switch-exhaustiveness-check",
  "unbound-method",
  "use-unknown-in-catch-callback-variable"]

end Tsgolint.Cli
