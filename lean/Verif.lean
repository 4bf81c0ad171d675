import Verif.Props.Fixer
import Verif.Props.Framing
import Verif.Props.Pipeline
import Verif.Props.ResolverPool
import Verif.Props.Payload
import Verif.Props.Workload
import Verif.Props.Bfs
import Verif.Props.FindTsconfig
import Verif.Props.Worker
import Verif.Props.Visit
import Verif.Props.Timing
import Verif.Props.Emit
import Verif.Props.Run
import Verif.Props.Headless
import Verif.Props.EndToEnd
import Verif.Props.Vfs
import Verif.Props.StringLiteral
import Verif.Props.Slices
import Verif.Props.Specifier
import Verif.Props.Options
import Verif.Props.TypeGraph
import Verif.Props.RuleTree
import Verif.Props.ConsistentReturn
import Verif.Props.RequireAwait
import Verif.Props.ReturnAwait
import Verif.Props.Switch
import Verif.Props.MixedEnums
import Verif.Props.Template
import Verif.Props.Duplicates
import Verif.Props.BooleanCompare
import Verif.Props.StartsEnds
import Verif.Props.Includes
import Verif.Props.DotNotation
import Verif.Props.PlusOperands
import Verif.Props.StrictBoolean
import Verif.Props.EnumComparison
import Verif.Props.Redundant
import Verif.Props.BaseToString
import Verif.Props.Floating
import Verif.Props.AwaitThenable
import Verif.Props.RestrictTemplate
import Verif.Props.NonNullable
import Verif.Props.Accessors
import Verif.Props.ArrayDelete
import Verif.Props.Errors
import Verif.Props.SmallRules
import Verif.Props.PromiseAsync
import Verif.Props.Qualifier
import Verif.Props.RegexpExec
import Verif.Props.ImpliedEval
import Verif.Props.TypeArguments
import Verif.Props.UnboundMethod
import Verif.Props.VoidExpression
import Verif.Props.PreferFind
import Verif.Props.UnsafeAccess
import Verif.Props.UnsafeArgument
import Verif.Props.UnsafeReturn
import Verif.Props.UnsafeAssignment
import Verif.Props.TypeAssertion
import Verif.Props.ReturnThis
import Verif.Props.CatchCallback
import Verif.Props.TypeConversion
import Verif.Props.DefaultAssignment
import Verif.Props.TypeExports
import Verif.Props.MisusedSpread
import Verif.Props.VoidReturn
import Verif.Props.ReadonlyParam
import Verif.Props.PreferReadonly
import Verif.Props.TypeParameters
import Verif.Props.MisusedPromises
import Verif.Props.TypeContains
import Verif.Props.UnnecessaryAssertion
import Verif.Props.AssertionFix
import Verif.Props.NonNull
import Verif.Props.Nullish
import Verif.Props.NullishMeaning
import Verif.Props.NullishFix
import Verif.Props.Deprecated
import Verif.Props.Condition
import Verif.Props.CodeBox
import Verif.Props.Cli
import Verif.Props.OptionalExpr
import Verif.Props.OptionalOperand
import Verif.Props.OptionalChains
import Verif.Props.OptionalFix
import Verif.Props.OptionalCode
import Verif.Props.OptionalOr
import Verif.Props.OptionalEmpty
import Verif.Props.OptionalReport
import Verif.Props.OptionalOrReport
import Verif.Props.OptionalRange
import Verif.Props.ConditionChain
import Verif.Props.OptionalVisit
import Verif.Props.SnapshotFile
import Verif.Props.OptionalEnding
import Verif.Props.OptionalOrEnding
import Verif.Props.OptionalReportExact
import Verif.Props.OptionalOrReportExact
import Verif.Props.ConditionChainExact
import Verif.Props.StaticValue
import Verif.Props.RuleTester
import Verif.Props.VoidContext
import Verif.Props.TemplateSingle
import Verif.Props.Annotate
import Verif.Props.StartsEndsFollow
import Verif.Props.AccessorNames
import Verif.Props.IncludesTest
import Verif.Props.Comments
import Verif.Props.UnboundPatterns
import Verif.Props.TypeNames
import Verif.Props.UnsafePlaces
import Verif.Props.ConditionPlaces
import Verif.Props.GroupPlaces
import Verif.Props.OptionalMemo
import Verif.Props.AccessType
import Verif.Props.RemoveAsync
import Verif.Props.Wrapping
import Verif.Props.SpreadPlaces
import Verif.Props.Highlights
import Verif.Props.FixParts
import Verif.Props.FunctionKinds
import Verif.Props.ReturnThisPlaces
import Verif.Props.AsyncPlaces
import Verif.Props.ReturnPlaces
