{
 "claims": [
  {
   "property": "C01",
   "status": "proved",
   "theorems": [
    "Tsgolint.Fixer.C01_output_is_simultaneous_edit"
   ],
   "note": "Hypothesis: no inverted fix range (pos <= end). Aliased fixes slices are not modelled."
  },
  {
   "property": "C02",
   "status": "proved",
   "theorems": [
    "Tsgolint.Fixer.C02_all_or_nothing",
    "Tsgolint.Fixer.C02_no_fix_no_change"
   ],
   "note": ""
  },
  {
   "property": "C03",
   "status": "proved",
   "theorems": [
    "Tsgolint.Fixer.C03_dropped_only_by_overlap",
    "Tsgolint.Fixer.C03_independent_all_applied"
   ],
   "note": ""
  },
  {
   "property": "C04",
   "status": "proved",
   "theorems": [
    "Tsgolint.Fixer.C04_no_panic",
    "Tsgolint.Fixer.C04_single_message_panics_iff",
    "Tsgolint.Fixer.C04_self_overlap_panics"
   ],
   "note": ""
  },
  {
   "property": "C05",
   "status": "proved",
   "theorems": [
    "Tsgolint.Fixer.C05_order_independent",
    "Tsgolint.Fixer.C05_equal_keys_order_dependent"
   ],
   "note": "The negative theorem shows the distinct-key hypothesis is needed."
  },
  {
   "property": "C06",
   "status": "proved",
   "theorems": [
    "Tsgolint.Framing.C06_round_trip",
    "Tsgolint.Framing.C06_injective",
    "Tsgolint.Framing.C06_truncated",
    "Tsgolint.Framing.C06_header",
    "Tsgolint.Framing.C06_marshal_error_writes_nothing",
    "Tsgolint.Framing.C06_oversized_not_recoverable"
   ],
   "note": "json.Marshal is a parameter; write errors of the OS are not modelled."
  },
  {
   "property": "C07",
   "status": "proved",
   "theorems": [
    "Tsgolint.Pipeline.C07_success_output",
    "Tsgolint.Pipeline.C07_success_decoded",
    "Tsgolint.Pipeline.C07_prefix_at_every_instant",
    "Tsgolint.Pipeline.C07_crash_decoded",
    "Tsgolint.Pipeline.C07_no_deadlock",
    "Tsgolint.Pipeline.C07_terminates",
    "Tsgolint.Pipeline.C07_exit_zero"
   ],
   "note": "Small-step model of all goroutines; what each file lint reports is a parameter."
  },
  {
   "property": "C08",
   "status": "proved",
   "theorems": [
    "Tsgolint.Pipeline.C08_error_output",
    "Tsgolint.Pipeline.C08_diagnostic_can_be_lost",
    "Tsgolint.Pipeline.C08_frames_can_be_corrupted"
   ],
   "note": "The stronger guarantee (intact frames on the error path) is false of the code; two witness executions prove it."
  },
  {
   "property": "C16",
   "status": "proved",
   "theorems": [
    "Tsgolint.Pipeline.C16_each_file_linted_once",
    "Tsgolint.Pipeline.C16_program_returns_complete",
    "Tsgolint.Pipeline.C16_never_started_twice"
   ],
   "note": "Deadlock freedom and termination are C07_no_deadlock and C07_terminates on the same model."
  },
  {
   "property": "C17",
   "status": "proved",
   "theorems": [
    "Tsgolint.Pipeline.C17_checker_exclusive"
   ],
   "note": ""
  },
  {
   "property": "C13",
   "status": "proved",
   "theorems": [
    "Tsgolint.ResolverPool.C13_result",
    "Tsgolint.ResolverPool.C13_never_wrong",
    "Tsgolint.ResolverPool.C13_no_deadlock",
    "Tsgolint.ResolverPool.C13_terminates"
   ],
   "note": "The single-file lookup is a pure parameter."
  },
  {
   "property": "C09",
   "status": "proved",
   "theorems": [
    "Tsgolint.Payload.C09_v1_means_v2",
    "Tsgolint.Payload.C09_v1_no_files_rejected",
    "Tsgolint.Payload.C09_accepted_v1"
   ],
   "note": "The JSON library is modelled by its documented decoding rules."
  },
  {
   "property": "C10",
   "status": "proved",
   "theorems": [
    "Tsgolint.Payload.C10_version_2",
    "Tsgolint.Payload.C10_accepted_is_v2",
    "Tsgolint.Payload.C10_v2_round_trip",
    "Tsgolint.Payload.C10_unset_null_zero",
    "Tsgolint.Payload.C10_other_rejected",
    "Tsgolint.Payload.C10_bad_version_rejected",
    "Tsgolint.Payload.C10_unknown_member_ignored",
    "Tsgolint.Payload.C10_not_an_object_rejected"
   ],
   "note": "Error message texts are modelled by kind only."
  },
  {
   "property": "C11",
   "status": "proved",
   "theorems": [
    "Tsgolint.Workload.C11_last_config_wins",
    "Tsgolint.Workload.C11_last_request_spec",
    "Tsgolint.Workload.C11_requested_files",
    "Tsgolint.Workload.C11_end_to_end",
    "Tsgolint.Workload.C11_slashes",
    "Tsgolint.Workload.C11_rules_for_file"
   ],
   "note": "That the program reports the source file under its normalised name is external."
  },
  {
   "property": "C12",
   "status": "proved",
   "theorems": [
    "Tsgolint.Workload.C12_buckets",
    "Tsgolint.Workload.C12_exactly_once",
    "Tsgolint.Workload.C12_longest_first",
    "Tsgolint.Workload.C12_order_independent"
   ],
   "note": ""
  },
  {
   "property": "C14",
   "status": "proved",
   "theorems": [
    "Tsgolint.Bfs.C14_terminates",
    "Tsgolint.Bfs.C14_visits",
    "Tsgolint.Bfs.C14_stops_iff",
    "Tsgolint.Bfs.C14_shortest_path",
    "Tsgolint.Bfs.C14_fallback"
   ],
   "note": "PreprocessLevel is not modelled (its only use changes nothing)."
  },
  {
   "property": "C15",
   "status": "proved",
   "theorems": [
    "Tsgolint.FindTsconfig.C15_sound_and_nearest",
    "Tsgolint.FindTsconfig.C15_complete",
    "Tsgolint.FindTsconfig.C15_terminates",
    "Tsgolint.FindTsconfig.C15_disableSolutionSearching_ignored"
   ],
   "note": "typescript-go's config registry is a pure parameter; includes the finding that disableSolutionSearching is ignored."
  },
  {
   "property": "C18",
   "status": "proved",
   "theorems": [
    "Tsgolint.Worker.C18_exact_report",
    "Tsgolint.Worker.C18_attribution"
   ],
   "note": "Rules are stateful parameters: a listener may answer according to its whole history in that file."
  },
  {
   "property": "C19",
   "status": "proved",
   "theorems": [
    "Tsgolint.Worker.C19_files_independent",
    "Tsgolint.Worker.C19_workers_agree"
   ],
   "note": ""
  },
  {
   "property": "C20",
   "status": "proved",
   "theorems": [
    "Tsgolint.Worker.C20_rules_independent"
   ],
   "note": ""
  },
  {
   "property": "C21",
   "status": "proved",
   "theorems": [
    "Tsgolint.Worker.C21_deterministic"
   ],
   "note": ""
  },
  {
   "property": "C24",
   "status": "proved",
   "theorems": [
    "Tsgolint.Worker.C24_same_reports",
    "Tsgolint.Worker.C24_call_counts",
    "Tsgolint.Worker.C24_calls_per_file"
   ],
   "note": "The clock is a parameter."
  },
  {
   "property": "C22",
   "status": "proved",
   "theorems": [
    "Tsgolint.Visit.C22_nested",
    "Tsgolint.Visit.C22_each_node_once",
    "Tsgolint.Visit.C22_parent_surrounds",
    "Tsgolint.Visit.C22_events_of_node",
    "Tsgolint.Visit.C22_reached_or_skipped"
   ],
   "note": "Besides names of property assignments in patterns, JSDoc modifiers/types attached to an assignment are skipped too."
  },
  {
   "property": "C23",
   "status": "proved",
   "theorems": [
    "Tsgolint.Visit.C23_no_collision",
    "Tsgolint.Visit.C23_bound_needed"
   ],
   "note": "Hypothesis: syntax kinds are below 1000 (typescript-go has a few hundred)."
  },
  {
   "property": "C25",
   "status": "proved",
   "theorems": [
    "Tsgolint.Timing.C25_records",
    "Tsgolint.Timing.C25_schedule_independent",
    "Tsgolint.Timing.C25_total_calls",
    "Tsgolint.Timing.C25_message"
   ],
   "note": ""
  },
  {
   "property": "C26",
   "status": "proved",
   "theorems": [
    "Tsgolint.Emit.C26_only_when_requested",
    "Tsgolint.Emit.C26_carried_over",
    "Tsgolint.Emit.C26_panics_iff",
    "Tsgolint.Emit.C26_generators",
    "Tsgolint.Emit.C26_never_run",
    "Tsgolint.Emit.C26_end_to_end",
    "Tsgolint.Emit.C26_internal"
   ],
   "note": "The JSON encoding itself is not modelled."
  },
  {
   "property": "C27",
   "status": "proved",
   "theorems": [
    "Tsgolint.Run.C27_exactly_requested",
    "Tsgolint.Run.C27_syntactic_per_file"
   ],
   "note": "typescript-go's diagnostics are parameters."
  },
  {
   "property": "C28",
   "status": "proved",
   "theorems": [
    "Tsgolint.Run.C28_returned",
    "Tsgolint.Run.C28_stops_iff",
    "Tsgolint.Run.C28_order_independent",
    "Tsgolint.Run.C28_invalid_iff",
    "Tsgolint.Run.C28_invalid_diagnostics"
   ],
   "note": "typescript-go (config parser, program) is a parameter."
  },
  {
   "property": "C29",
   "status": "proved",
   "theorems": [
    "Tsgolint.Headless.C29_exit_code"
   ],
   "note": "Flag parsing, profiling and stdin are modelled by their outcomes."
  },
  {
   "property": "C41",
   "status": "proved",
   "theorems": [
    "Tsgolint.Headless.C41_pieces",
    "Tsgolint.Headless.C41_debug_option"
   ],
   "note": ""
  },
  {
   "property": "C49",
   "status": "proved",
   "theorems": [
    "Tsgolint.Headless.C49_end_to_end"
   ],
   "note": "Composition of the models of payload, workload, driver, worker, conversion and pipeline; typescript-go and JSON are parameters."
  },
  {
   "property": "C30",
   "status": "proved",
   "theorems": [
    "Tsgolint.Vfs.C30_override_wins",
    "Tsgolint.Vfs.C30_rest_delegated",
    "Tsgolint.Vfs.C30_no_leak",
    "Tsgolint.Vfs.C30_headless",
    "Tsgolint.Vfs.C30_unnormalised_override_ignored"
   ],
   "note": "Includes the finding that override keys are not slash-normalised while lookups are."
  },
  {
   "property": "C31",
   "status": "proved",
   "theorems": [
    "Tsgolint.Vfs.C31_repeatable",
    "Tsgolint.Vfs.C31_sequential",
    "Tsgolint.Vfs.C31_stable_disk",
    "Tsgolint.Vfs.C31_race"
   ],
   "note": "C31_race exhibits the interleaving in which two concurrent first reads differ."
  },
  {
   "property": "C32",
   "status": "proved",
   "theorems": [
    "Tsgolint.Vfs.C32_same_object",
    "Tsgolint.Vfs.C32_right_object"
   ],
   "note": ""
  },
  {
   "property": "C33",
   "status": "proved",
   "theorems": [
    "Tsgolint.Vfs.C33_directory_exists",
    "Tsgolint.Vfs.C33_entries",
    "Tsgolint.Vfs.C33_coherent",
    "Tsgolint.Vfs.C33_virtual_files_read_only"
   ],
   "note": ""
  },
  {
   "property": "C34",
   "status": "proved",
   "theorems": [
    "Tsgolint.StringLiteral.C34_denotes",
    "Tsgolint.StringLiteral.C34_injective",
    "Tsgolint.StringLiteral.C34_one_line",
    "Tsgolint.StringLiteral.C34_plain_unchanged"
   ],
   "note": ""
  },
  {
   "property": "C35",
   "status": "proved",
   "theorems": [
    "Tsgolint.Slices.C35_filterIndex",
    "Tsgolint.Slices.C35_filter",
    "Tsgolint.Slices.C35_filter_calls",
    "Tsgolint.Slices.C35_filter_may_alias",
    "Tsgolint.Slices.C35_flatten",
    "Tsgolint.Slices.C35_map",
    "Tsgolint.Slices.C35_map_pure",
    "Tsgolint.Slices.C35_tryMap",
    "Tsgolint.Slices.C35_some",
    "Tsgolint.Slices.C35_some_calls",
    "Tsgolint.Slices.C35_every",
    "Tsgolint.Slices.C35_every_calls",
    "Tsgolint.Slices.C35_set_has",
    "Tsgolint.Slices.C35_set_len",
    "Tsgolint.Slices.C35_set_fromItems"
   ],
   "note": "C35_filter_may_alias: Filter returns its input slice itself when nothing is dropped."
  },
  {
   "property": "C36",
   "status": "proved",
   "theorems": [
    "Tsgolint.Options.C36_bool",
    "Tsgolint.Options.C36_meaning",
    "Tsgolint.Options.C36_trichotomy",
    "Tsgolint.Options.C36_round_trip"
   ],
   "note": "The inner type's reader and writer are parameters."
  },
  {
   "property": "C50",
   "status": "proved",
   "theorems": [
    "Tsgolint.Options.C50_given",
    "Tsgolint.Options.C50_default",
    "Tsgolint.Options.C50_exactly_the_options",
    "Tsgolint.Options.C50_panics_iff",
    "Tsgolint.Options.C50_documented",
    "Tsgolint.Options.C50_none_is_empty",
    "Tsgolint.Options.C50_return_await",
    "Tsgolint.Options.C50_checks_void_return",
    "Tsgolint.Options.C50_checks_void_return_object",
    "Tsgolint.Options.C50_checks_void_return_other"
   ],
   "note": "Option tables and documented defaults are generated from the rules' options.go and schema files by tools/gen_options.py."
  },
  {
   "property": "C37",
   "status": "proved",
   "theorems": [
    "Tsgolint.Specifier.C37_accepted",
    "Tsgolint.Specifier.C37_rejected",
    "Tsgolint.Specifier.C37_round_trip",
    "Tsgolint.Specifier.C37_reread",
    "Tsgolint.Specifier.C37_universal"
   ],
   "note": ""
  },
  {
   "property": "C38",
   "status": "proved",
   "theorems": [
    "Tsgolint.Specifier.C38_type",
    "Tsgolint.Specifier.C38_symbol",
    "Tsgolint.Specifier.C38_package_of_path",
    "Tsgolint.Specifier.C38_scoped_package_of_path",
    "Tsgolint.Specifier.C38_outside_node_modules",
    "Tsgolint.Specifier.C38_nearest_package_json",
    "Tsgolint.Specifier.C38_file_prefix_not_directory",
    "Tsgolint.Specifier.C38_value"
   ],
   "note": "typescript-go's declarations, file names and tspath are parameters."
  },
  {
   "property": "C39",
   "status": "proved",
   "theorems": [
    "Tsgolint.TypeGraph.C39_terminates",
    "Tsgolint.TypeGraph.C39_unique",
    "Tsgolint.TypeGraph.C39_exact",
    "Tsgolint.TypeGraph.C39_panic",
    "Tsgolint.TypeGraph.C39_new_map"
   ],
   "note": "Types are the elements of an arbitrary, possibly cyclic graph; typescript-go's flags and type arguments are functions on it."
  },
  {
   "property": "C40",
   "status": "proved",
   "theorems": [
    "Tsgolint.TypeGraph.C40_exact",
    "Tsgolint.TypeGraph.C40_terminates",
    "Tsgolint.TypeGraph.C40_unique",
    "Tsgolint.TypeGraph.C40_condition_needed"
   ],
   "note": "C40_exact assumes that awaiting is complete (as getAwaitedType is); C40_condition_needed shows what happens otherwise."
  },
  {
   "property": "C51",
   "status": "proved",
   "theorems": [
    "Tsgolint.TypeGraph.C51_builtin_like",
    "Tsgolint.TypeGraph.C51_terminates",
    "Tsgolint.TypeGraph.C51_symbol_like",
    "Tsgolint.TypeGraph.C51_any_symbol_like",
    "Tsgolint.TypeGraph.C51_matches_base",
    "Tsgolint.TypeGraph.C51_matches_terminates"
   ],
   "note": "Termination under well-foundedness of parts, constraints and base types."
  },
  {
   "property": "C52",
   "status": "proved",
   "theorems": [
    "Tsgolint.TypeGraph.C52_name_string",
    "Tsgolint.TypeGraph.C52_name_other",
    "Tsgolint.TypeGraph.C52_signatures",
    "Tsgolint.TypeGraph.C52_thenable",
    "Tsgolint.TypeGraph.C52_awaitable"
   ],
   "note": ""
  },
  {
   "property": "C42",
   "status": "proved",
   "theorems": [
    "Tsgolint.ConsistentReturn.C42_exact",
    "Tsgolint.ConsistentReturn.C42_count",
    "Tsgolint.ConsistentReturn.C42_void",
    "Tsgolint.ConsistentReturn.C42_void_terminates"
   ],
   "note": "What the checker says about a return (undefined? void?) is part of the labels / a parameter."
  },
  {
   "property": "C43",
   "status": "proved",
   "theorems": [
    "Tsgolint.RequireAwait.C43_exact",
    "Tsgolint.RequireAwait.C43_once",
    "Tsgolint.RequireAwait.C43_semicolon",
    "Tsgolint.RequireAwait.C43_unwraps",
    "Tsgolint.RequireAwait.C43_renames"
   ],
   "note": "Thenable-ness and token positions are parameters."
  },
  {
   "property": "C44",
   "status": "proved",
   "theorems": [
    "Tsgolint.ReturnAwait.C44_exact",
    "Tsgolint.ReturnAwait.C44_consistent",
    "Tsgolint.ReturnAwait.C44_adds",
    "Tsgolint.ReturnAwait.C44_removes"
   ],
   "note": "Whether an expression is a promise and its precedence are parameters."
  },
  {
   "property": "C53",
   "status": "proved",
   "theorems": [
    "Tsgolint.RuleTree.C53_nested",
    "Tsgolint.RuleTree.C53_functions_apart",
    "Tsgolint.RuleTree.C53_isolated"
   ],
   "note": ""
  },
  {
   "property": "C45",
   "status": "proved",
   "theorems": [
    "Tsgolint.Switch.C45_exact",
    "Tsgolint.Switch.C45_missing",
    "Tsgolint.Switch.C45_exclusive",
    "Tsgolint.Switch.C45_complete",
    "Tsgolint.Switch.C45_terminates",
    "Tsgolint.Switch.C45_suggestion",
    "Tsgolint.Switch.C45_line",
    "Tsgolint.Switch.C45_test"
   ],
   "note": "Types are elements of an arbitrary graph; typescript-go's flags, names and case types are parameters."
  },
  {
   "property": "C46",
   "status": "proved",
   "theorems": [
    "Tsgolint.MixedEnums.C46_exact",
    "Tsgolint.MixedEnums.C46_mixed",
    "Tsgolint.MixedEnums.C46_panics_iff"
   ],
   "note": "Includes the finding that an enum whose first declaration has no members panics the rule."
  },
  {
   "property": "C47",
   "status": "proved",
   "theorems": [
    "Tsgolint.Template.C47_preserves",
    "Tsgolint.Template.C47_escape",
    "Tsgolint.Template.C47_escape_template",
    "Tsgolint.Template.C47_hazard_null",
    "Tsgolint.Template.C47_hazard_cr",
    "Tsgolint.Template.C47_unnecessary",
    "Tsgolint.Template.C47_literal_edits",
    "Tsgolint.Template.C47_nested_edits"
   ],
   "note": "C47_preserves excludes texts that end in \\0 or a carriage return; C47_hazard_null and C47_hazard_cr show that the fixer does go wrong there (finding)."
  },
  {
   "property": "C48",
   "status": "proved",
   "theorems": [
    "Tsgolint.Duplicates.C48_exact",
    "Tsgolint.Duplicates.C48_only",
    "Tsgolint.Duplicates.C48_distinct",
    "Tsgolint.Duplicates.C48_covered",
    "Tsgolint.Duplicates.C48_unnecessary",
    "Tsgolint.Duplicates.C48_first",
    "Tsgolint.Duplicates.C48_group_kept",
    "Tsgolint.Duplicates.C48_union",
    "Tsgolint.Duplicates.C48_intersection",
    "Tsgolint.Duplicates.C48_hazard",
    "Tsgolint.Duplicates.C48_fix_before",
    "Tsgolint.Duplicates.C48_fix_after",
    "Tsgolint.Duplicates.C48_fix_panics"
   ],
   "note": "C48_union and C48_intersection exclude groups with the type of something in them; C48_hazard shows the fixer losing values there (finding). Scanner tokens are parameters."
  },
  {
   "property": "C54",
   "status": "proved",
   "theorems": [
    "Tsgolint.BooleanCompare.C54_reported_iff",
    "Tsgolint.BooleanCompare.C54_same_condition",
    "Tsgolint.BooleanCompare.C54_same_value",
    "Tsgolint.BooleanCompare.C54_fix_text",
    "Tsgolint.BooleanCompare.C54_operands",
    "Tsgolint.BooleanCompare.C54_surroundings",
    "Tsgolint.BooleanCompare.C54_hazard_precedence",
    "Tsgolint.BooleanCompare.C54_hazard_other_types"
   ],
   "note": "The meaning theorems assume that the expression can only be boolean or nullish; the hazard theorems show what happens otherwise (findings)."
  },
  {
   "property": "C55",
   "status": "proved",
   "theorems": [
    "Tsgolint.StartsEnds.C55_comparison",
    "Tsgolint.StartsEnds.C55_report_fix",
    "Tsgolint.StartsEnds.C55_slices",
    "Tsgolint.StartsEnds.C55_end_slices",
    "Tsgolint.StartsEnds.C55_regex",
    "Tsgolint.StartsEnds.C55_match",
    "Tsgolint.StartsEnds.C55_split",
    "Tsgolint.StartsEnds.C55_quote",
    "Tsgolint.StartsEnds.C55_fix_right",
    "Tsgolint.StartsEnds.C55_fix_argument",
    "Tsgolint.StartsEnds.C55_fix_match",
    "Tsgolint.StartsEnds.C55_fix_test",
    "Tsgolint.StartsEnds.C55_hazard_octal",
    "Tsgolint.StartsEnds.C55_hazard_quote",
    "Tsgolint.StartsEnds.C55_hazard_lastIndexOf",
    "Tsgolint.StartsEnds.C55_hazard_empty",
    "Tsgolint.StartsEnds.C55_hazard_end",
    "Tsgolint.StartsEnds.C55_hazard_tokens",
    "Tsgolint.StartsEnds.C55_hazard_parentheses"
   ],
   "note": "Proved outside the situations the hazard theorems show to go wrong (findings). Assumes variables keep their initial value, as the rule does."
  },
  {
   "property": "C56",
   "status": "proved",
   "theorems": [
    "Tsgolint.Includes.C56_table",
    "Tsgolint.Includes.C56_reported_iff",
    "Tsgolint.Includes.C56_strings",
    "Tsgolint.Includes.C56_arrays",
    "Tsgolint.Includes.C56_pattern",
    "Tsgolint.Includes.C56_literal",
    "Tsgolint.Includes.C56_fix_compare",
    "Tsgolint.Includes.C56_fix_test",
    "Tsgolint.Includes.C56_hazard_arrays",
    "Tsgolint.Includes.C56_hazard_optional",
    "Tsgolint.Includes.C56_hazard_backslash",
    "Tsgolint.Includes.C56_hazard_apostrophe",
    "Tsgolint.Includes.C56_hazard_flags",
    "Tsgolint.IncludesTest.C56_test_iff",
    "Tsgolint.IncludesTest.C56_test_valid",
    "Tsgolint.IncludesTest.C56_hazard_spread",
    "Tsgolint.IncludesTest.C56_hazard_let"
   ],
   "note": "C56_pattern is for harmless patterns (defined in the specification); the hazard theorems show accepted patterns and comparisons that are changed in meaning (findings)."
  },
  {
   "property": "C57",
   "status": "proved",
   "theorems": [
    "Tsgolint.DotNotation.C57_computed_iff",
    "Tsgolint.DotNotation.C57_dotted_iff",
    "Tsgolint.DotNotation.C57_stable",
    "Tsgolint.DotNotation.C57_relevant",
    "Tsgolint.DotNotation.C57_skip_iff",
    "Tsgolint.DotNotation.C57_fix_computed",
    "Tsgolint.DotNotation.C57_fix_optional",
    "Tsgolint.DotNotation.C57_hazard_comment",
    "Tsgolint.DotNotation.C57_integer",
    "Tsgolint.DotNotation.C57_space",
    "Tsgolint.DotNotation.C57_fix_dotted",
    "Tsgolint.DotNotation.C57_fix_dotted_optional"
   ],
   "note": "Comments between the brackets are lost by the fix (C57_hazard_comment)."
  },
  {
   "property": "C58",
   "status": "proved",
   "theorems": [
    "Tsgolint.PlusOperands.C58_exact",
    "Tsgolint.PlusOperands.C58_sound",
    "Tsgolint.PlusOperands.C58_symmetric",
    "Tsgolint.PlusOperands.C58_operators"
   ],
   "note": "Types, flags and constraints are the compiler's. C58_sound is about values of the kinds the flags describe; `object`, unconstrained type parameters and branded intersections have none of these flags and are not reported (finding)."
  },
  {
   "property": "C59",
   "status": "proved",
   "theorems": [
    "Tsgolint.StrictBoolean.C59_conditions",
    "Tsgolint.StrictBoolean.C59_classify",
    "Tsgolint.StrictBoolean.C59_order",
    "Tsgolint.StrictBoolean.C59_strict",
    "Tsgolint.StrictBoolean.C59_no_confusion",
    "Tsgolint.StrictBoolean.C59_hazard_enum",
    "Tsgolint.StrictBoolean.C59_hazard_brand",
    "Tsgolint.StrictBoolean.C59_messages",
    "Tsgolint.StrictBoolean.C59_asserted"
   ],
   "note": "C59_strict and C59_no_confusion exclude enums (and C59_no_confusion intersections): the hazard theorems show why (findings)."
  },
  {
   "property": "C60",
   "status": "proved",
   "theorems": [
    "Tsgolint.EnumComparison.C60_exact",
    "Tsgolint.EnumComparison.C60_symmetric",
    "Tsgolint.EnumComparison.C60_operators",
    "Tsgolint.EnumComparison.C60_static",
    "Tsgolint.EnumComparison.C60_key",
    "Tsgolint.EnumComparison.C60_suggest",
    "Tsgolint.EnumComparison.C60_suffix",
    "Tsgolint.EnumComparison.C60_qualifier",
    "Tsgolint.EnumComparison.C60_hazard_dotted"
   ],
   "note": "Types, symbols, constants and IEEE arithmetic are parameters."
  },
  {
   "property": "C61",
   "status": "proved",
   "theorems": [
    "Tsgolint.Redundant.C61_union",
    "Tsgolint.Redundant.C61_union_sound",
    "Tsgolint.Redundant.C61_union_top",
    "Tsgolint.Redundant.C61_intersection_flat",
    "Tsgolint.Redundant.C61_intersection_union",
    "Tsgolint.Redundant.C61_intersection_flat_sound",
    "Tsgolint.Redundant.C61_intersection_union_sound",
    "Tsgolint.Redundant.C61_hazard_text",
    "Tsgolint.Redundant.C61_hazard_never",
    "Tsgolint.Redundant.C61_hazard_boolean"
   ],
   "note": "Types of nodes come from the compiler. Hazards: texts repeated and swapped, (never | string) & x, boolean behind a reference."
  },
  {
   "property": "C62",
   "status": "proved",
   "theorems": [
    "Tsgolint.BaseToString.C62_answers_exist",
    "Tsgolint.BaseToString.C62_answers_unique",
    "Tsgolint.BaseToString.C62_history",
    "Tsgolint.BaseToString.C62_reports",
    "Tsgolint.BaseToString.C62_checks",
    "Tsgolint.BaseToString.C62_terminates",
    "Tsgolint.BaseToString.C62_hazard_order",
    "Tsgolint.BaseToString.C62_hazard_intersection"
   ],
   "note": "What the compiler says of types is a parameter. C62_hazard_order: with type A = [B, {}]; type B = [A] an expression of type B is reported or not depending on whether one of type A was checked before."
  },
  {
   "property": "C63",
   "status": "proved",
   "theorems": [
    "Tsgolint.Floating.C63_floating",
    "Tsgolint.Floating.C63_messages",
    "Tsgolint.Floating.C63_handler",
    "Tsgolint.Floating.C63_useless",
    "Tsgolint.Floating.C63_fix",
    "Tsgolint.Floating.C63_fix_void",
    "Tsgolint.Floating.C63_hazard_parens",
    "Tsgolint.Floating.C63_hazard_comma",
    "Tsgolint.Floating.C63_hazard_finally",
    "Tsgolint.Floating.C63_hazard_stored"
   ],
   "note": "Hypothesis Spine excludes exactly the shapes for which the hazards show the claim false. C63_hazard_parens: `c ? (p.catch(f)) : q` is reported."
  },
  {
   "property": "C64",
   "status": "proved",
   "theorems": [
    "Tsgolint.AwaitThenable.C64_await",
    "Tsgolint.AwaitThenable.C64_elements",
    "Tsgolint.AwaitThenable.C64_argument",
    "Tsgolint.AwaitThenable.C64_for_await",
    "Tsgolint.AwaitThenable.C64_await_using",
    "Tsgolint.AwaitThenable.C64_fix",
    "Tsgolint.AwaitThenable.C64_hazard_iterable",
    "Tsgolint.AwaitThenable.C64_hazard_lines"
   ],
   "note": "hazards: iterables that are no arrays are judged by their first type argument; removing await can join two lines"
  },
  {
   "property": "C65",
   "status": "proved",
   "theorems": [
    "Tsgolint.RestrictTemplate.C65_exact",
    "Tsgolint.RestrictTemplate.C65_terminates",
    "Tsgolint.RestrictTemplate.C65_diverges",
    "Tsgolint.RestrictTemplate.C65_monotone",
    "Tsgolint.RestrictTemplate.C65_report"
   ],
   "note": "finding: with allowArray a recursive array type makes the check recurse for ever (C65_diverges)"
  },
  {
   "property": "C66",
   "status": "proved",
   "theorems": [
    "Tsgolint.NonNullable.C66_reported",
    "Tsgolint.NonNullable.C66_fix",
    "Tsgolint.NonNullable.C66_hazard_angle"
   ],
   "note": "finding: for `<T>e` the suggestion keeps the assertion; ast.IsAssertionExpression is external and taken to be true of both kinds"
  },
  {
   "property": "C67",
   "status": "proved",
   "theorems": [
    "Tsgolint.Accessors.C67_sound",
    "Tsgolint.Accessors.C67_complete",
    "Tsgolint.Accessors.C67_names",
    "Tsgolint.Accessors.C67_same_names",
    "Tsgolint.Accessors.C67_hazard_static",
    "Tsgolint.Accessors.C67_hazard_quoted"
   ],
   "note": "findings: static and instance accessors of the same name are paired with each other; quoted and unquoted names are not paired"
  },
  {
   "property": "C68",
   "status": "proved",
   "theorems": [
    "Tsgolint.ArrayDelete.C68_reported",
    "Tsgolint.ArrayDelete.C68_fix",
    "Tsgolint.ArrayDelete.C68_hazard_optional",
    "Tsgolint.ArrayDelete.C68_hazard_comma",
    "Tsgolint.ArrayDelete.C68_hazard_nested"
   ],
   "note": "findings: `delete a?.[i]` and comma expressions are rewritten wrongly"
  },
  {
   "property": "C69",
   "status": "proved",
   "theorems": [
    "Tsgolint.Errors.C69_throw",
    "Tsgolint.Errors.C69_reject"
   ],
   "note": "type predicates are parameters (C26, C27, C51, C52)"
  },
  {
   "property": "C70",
   "status": "proved",
   "theorems": [
    "Tsgolint.SmallRules.C70_void",
    "Tsgolint.SmallRules.C70_void_fix",
    "Tsgolint.SmallRules.C70_sort",
    "Tsgolint.SmallRules.C70_for_in",
    "Tsgolint.SmallRules.C70_minus",
    "Tsgolint.SmallRules.C70_hazard_union"
   ],
   "note": "finding: unions of string arrays are reported although ignoreStringArrays is on"
  },
  {
   "property": "C71",
   "status": "proved",
   "theorems": [
    "Tsgolint.SmallRules.C71_reduce",
    "Tsgolint.SmallRules.C71_fix_as",
    "Tsgolint.SmallRules.C71_fix_angle",
    "Tsgolint.SmallRules.C71_hazard_const"
   ],
   "note": "finding: `as const` gives `reduce< const>`"
  },
  {
   "property": "C72",
   "status": "proved",
   "theorems": [
    "Tsgolint.PromiseAsync.C72_wholly",
    "Tsgolint.PromiseAsync.C72_possibly",
    "Tsgolint.PromiseAsync.C72_terminates",
    "Tsgolint.PromiseAsync.C72_report",
    "Tsgolint.PromiseAsync.C72_async",
    "Tsgolint.PromiseAsync.C72_fix",
    "Tsgolint.AsyncPlaces.C72_kinds"
   ],
   "note": "promises are recognised by symbol name only"
  },
  {
   "property": "C73",
   "status": "proved",
   "theorems": [
    "Tsgolint.Qualifier.C73_reports",
    "Tsgolint.Qualifier.C73_same_symbol",
    "Tsgolint.Qualifier.C73_hazard_shadow",
    "Tsgolint.Qualifier.C73_fix"
   ],
   "note": "finding: a parameter hiding an exported constant is overlooked"
  },
  {
   "property": "C74",
   "status": "proved",
   "theorems": [
    "Tsgolint.RegexpExec.C74_flags",
    "Tsgolint.RegexpExec.C74_static",
    "Tsgolint.RegexpExec.C74_terminates",
    "Tsgolint.RegexpExec.C74_no_global",
    "Tsgolint.RegexpExec.C74_reports",
    "Tsgolint.RegexpExec.C74_literal",
    "Tsgolint.RegexpExec.C74_hazard_literal",
    "Tsgolint.RegexpExec.C74_hazard_copy",
    "Tsgolint.RegexpExec.C74_fix"
   ],
   "note": "findings: empty patterns, escaped slashes, copies of global regular expressions"
  },
  {
   "property": "C75",
   "status": "proved",
   "theorems": [
    "Tsgolint.ImpliedEval.C75_reports",
    "Tsgolint.ImpliedEval.C75_hazard"
   ],
   "note": "finding: any call named bind passes for a function"
  },
  {
   "property": "C76",
   "status": "proved",
   "theorems": [
    "Tsgolint.TypeArguments.C76_same",
    "Tsgolint.TypeArguments.C76_reported",
    "Tsgolint.TypeArguments.C76_safe",
    "Tsgolint.TypeArguments.C76_hazard_parameter",
    "Tsgolint.TypeArguments.C76_hazard_call",
    "Tsgolint.TypeArguments.C76_type_declaration",
    "Tsgolint.TypeArguments.C76_value_declaration",
    "Tsgolint.TypeArguments.C76_found",
    "Tsgolint.TypeArguments.C76_fix",
    "Tsgolint.TypeArguments.C76_places",
    "Tsgolint.TypeArguments.C76_hazard_interface"
   ],
   "note": "findings: defaults that are parameters of their own declaration; ordinary calls may be re-inferred; `extends` of an interface is looked at as a value"
  },
  {
   "property": "C77",
   "status": "proved",
   "theorems": [
    "Tsgolint.UnboundMethod.C77_safe",
    "Tsgolint.UnboundMethod.C77_call_safe",
    "Tsgolint.UnboundMethod.C77_hazard_logical",
    "Tsgolint.UnboundMethod.C77_type_declaration",
    "Tsgolint.UnboundMethod.C77_judge",
    "Tsgolint.UnboundMethod.C77_panics",
    "Tsgolint.UnboundMethod.C77_native",
    "Tsgolint.UnboundMethod.C77_access",
    "Tsgolint.UnboundMethod.C77_binding",
    "Tsgolint.UnboundPatterns.C77_literal_pattern",
    "Tsgolint.UnboundPatterns.C77_binding_pattern",
    "Tsgolint.UnboundPatterns.C77_once",
    "Tsgolint.UnboundPatterns.C77_hazard_names"
   ],
   "note": "findings: panic on an unannotated this parameter; (a.m || b)() counts as safe"
  },
  {
   "property": "C78",
   "status": "proved",
   "theorems": [
    "Tsgolint.VoidExpression.C78_void_function",
    "Tsgolint.VoidExpression.C78_reports",
    "Tsgolint.VoidExpression.C78_statement",
    "Tsgolint.VoidExpression.C78_hazard_comma",
    "Tsgolint.VoidExpression.C78_final",
    "Tsgolint.VoidExpression.C78_fix_void",
    "Tsgolint.VoidExpression.C78_fix_arrow",
    "Tsgolint.VoidExpression.C78_fix_last",
    "Tsgolint.VoidExpression.C78_fix_return"
   ],
   "note": "finding: the right operand of a comma is reported even if unused"
  },
  {
   "property": "C79",
   "status": "proved",
   "theorems": [
    "Tsgolint.PreferFind.C79_static",
    "Tsgolint.PreferFind.C79_terminates",
    "Tsgolint.PreferFind.C79_zero_at",
    "Tsgolint.PreferFind.C79_zero_member",
    "Tsgolint.PreferFind.C79_arrayish",
    "Tsgolint.PreferFind.C79_filters",
    "Tsgolint.PreferFind.C79_reports",
    "Tsgolint.PreferFind.C79_total",
    "Tsgolint.PreferFind.C79_value",
    "Tsgolint.PreferFind.C79_start",
    "Tsgolint.PreferFind.C79_fix",
    "Tsgolint.PreferFind.C79_hazard_holes",
    "Tsgolint.PreferFind.C79_hazard_range",
    "Tsgolint.PreferFind.C79_hazard_optional"
   ],
   "note": "findings: `?.at(0)` leaves a question mark, out-of-range numeric strings count as zero, holes"
  },
  {
   "property": "C80",
   "status": "proved",
   "theorems": [
    "Tsgolint.UnsafeAccess.C80_members",
    "Tsgolint.UnsafeAccess.C80_names",
    "Tsgolint.UnsafeAccess.C80_covered",
    "Tsgolint.UnsafeAccess.C80_once",
    "Tsgolint.UnsafeAccess.C80_hazard_parentheses"
   ],
   "note": "finding: (x.a).b is reported twice where x.a.b is reported once"
  },
  {
   "property": "C81",
   "status": "proved",
   "theorems": [
    "Tsgolint.UnsafeAccess.C81_reported",
    "Tsgolint.UnsafeAccess.C81_this"
   ],
   "note": "IsBuiltinSymbolLike is C39/C40 machinery (TypeGraph)"
  },
  {
   "property": "C82",
   "status": "proved",
   "theorems": [
    "Tsgolint.UnsafeArgument.C82_parameter",
    "Tsgolint.UnsafeArgument.C82_total",
    "Tsgolint.UnsafeArgument.C82_argument",
    "Tsgolint.UnsafeArgument.C82_tuple",
    "Tsgolint.UnsafeArgument.C82_spread",
    "Tsgolint.UnsafeArgument.C82_callee",
    "Tsgolint.UnsafeArgument.C82_hazard_iterable",
    "Tsgolint.UnsafeArgument.C82_hazard_middle"
   ],
   "note": "IsUnsafeAssignment itself is C39; after a spread iterable (which the compiler accepts only for a rest parameter) positions are unknown"
  },
  {
   "property": "C83",
   "status": "proved",
   "theorems": [
    "Tsgolint.UnsafeReturn.C83_any",
    "Tsgolint.UnsafeReturn.C83_assignment",
    "Tsgolint.UnsafeReturn.C83_function",
    "Tsgolint.UnsafeReturn.C83_label",
    "Tsgolint.UnsafeReturn.C83_hazard_promise",
    "Tsgolint.ReturnPlaces.C83_places"
   ],
   "note": "Finding: a promise of any returned by a function that is not async is never reported."
  },
  {
   "property": "C84",
   "status": "proved",
   "theorems": [
    "Tsgolint.UnsafeAssignment.C84_destructuring",
    "Tsgolint.UnsafeAssignment.C84_order",
    "Tsgolint.UnsafeAssignment.C84_assignment",
    "Tsgolint.UnsafeAssignment.C84_full",
    "Tsgolint.UnsafeAssignment.C84_object_literal",
    "Tsgolint.UnsafeAssignment.C84_array_literal",
    "Tsgolint.UnsafeAssignment.C84_place",
    "Tsgolint.UnsafeAssignment.C84_hazard_hole",
    "Tsgolint.UnsafePlaces.C84_places"
   ],
   "note": "Findings: the object literal listener stops at a member initialised by an assignment; holes of array assignment patterns are reported."
  },
  {
   "property": "C85",
   "status": "proved",
   "theorems": [
    "Tsgolint.TypeAssertion.C85_reported",
    "Tsgolint.TypeAssertion.C85_accepted"
   ],
   "note": "Relative to the checker's assignability; IsUnsafeAssignment is the modelled one (C39)."
  },
  {
   "property": "C86",
   "status": "proved",
   "theorems": [
    "Tsgolint.ReturnThis.C86_reported",
    "Tsgolint.ReturnThis.C86_fix",
    "Tsgolint.ReturnThis.C86_hazard_union",
    "Tsgolint.ReturnThisPlaces.C86_places",
    "Tsgolint.ReturnThisPlaces.C86_hazard_parens"
   ],
   "note": "Findings: values of unions with the class do not stop the report; properties whose value is a function in parentheses are not checked."
  },
  {
   "property": "C87",
   "status": "proved",
   "theorems": [
    "Tsgolint.CatchCallback.C87_callbacks",
    "Tsgolint.CatchCallback.C87_argument",
    "Tsgolint.CatchCallback.C87_message",
    "Tsgolint.CatchCallback.C87_replaces",
    "Tsgolint.CatchCallback.C87_inserts",
    "Tsgolint.CatchCallback.C87_hazard_panic",
    "Tsgolint.CatchCallback.C87_hazard_this"
   ],
   "note": "Findings: panic on an empty tuple rest parameter; a `this` parameter is annotated instead of the error variable."
  },
  {
   "property": "C88",
   "status": "proved",
   "theorems": [
    "Tsgolint.TypeConversion.C88_reported",
    "Tsgolint.TypeConversion.C88_names",
    "Tsgolint.TypeConversion.C88_keeps_value",
    "Tsgolint.TypeConversion.C88_fix",
    "Tsgolint.TypeConversion.C88_texts",
    "Tsgolint.TypeConversion.C88_plusEquals",
    "Tsgolint.TypeConversion.C88_hazard_range",
    "Tsgolint.TypeConversion.C88_hazard_join",
    "Tsgolint.TypeConversion.C88_hazard_if"
   ],
   "note": "Findings: ~~ on literals beyond 32 bits is reported; removal may join words or make the next statement conditional."
  },
  {
   "property": "C89",
   "status": "proved",
   "theorems": [
    "Tsgolint.DefaultAssignment.C89_binding",
    "Tsgolint.DefaultAssignment.C89_parameter",
    "Tsgolint.DefaultAssignment.C89_undefined",
    "Tsgolint.DefaultAssignment.C89_none",
    "Tsgolint.DefaultAssignment.C89_automatic",
    "Tsgolint.DefaultAssignment.C89_never_used",
    "Tsgolint.DefaultAssignment.C89_parameter_never_used",
    "Tsgolint.DefaultAssignment.C89_fix",
    "Tsgolint.DefaultAssignment.C89_fix_optional",
    "Tsgolint.DefaultAssignment.C89_hazard_computed",
    "Tsgolint.DefaultAssignment.C89_hazard_rest",
    "Tsgolint.DefaultAssignment.C89_hazard_array",
    "Tsgolint.DefaultAssignment.C89_hazard_void",
    "Tsgolint.DefaultAssignment.C89_hazard_this",
    "Tsgolint.DefaultAssignment.C89_hazard_pattern"
   ],
   "note": "Findings: computed keys, rest tuples, defaults in between over arrays, void, `this`, patterns losing their optionality."
  },
  {
   "property": "C90",
   "status": "proved",
   "theorems": [
    "Tsgolint.TypeExports.C90_terminates",
    "Tsgolint.TypeExports.C90_resolution",
    "Tsgolint.TypeExports.C90_reported",
    "Tsgolint.TypeExports.C90_message",
    "Tsgolint.TypeExports.C90_fix",
    "Tsgolint.TypeExports.C90_inline",
    "Tsgolint.TypeExports.C90_star",
    "Tsgolint.TypeExports.C90_star_fix",
    "Tsgolint.TypeExports.C90_hazard_lost",
    "Tsgolint.TypeExports.C90_hazard_join"
   ],
   "note": "Findings: the fix drops specifiers that are not resolved; `export*` becomes `exporttype *`."
  },
  {
   "property": "C91",
   "status": "proved",
   "theorems": [
    "Tsgolint.MisusedSpread.C91_object",
    "Tsgolint.MisusedSpread.C91_array",
    "Tsgolint.MisusedSpread.C91_map",
    "Tsgolint.MisusedSpread.C91_map_fix",
    "Tsgolint.MisusedSpread.C91_map_wrap",
    "Tsgolint.MisusedSpread.C91_await",
    "Tsgolint.MisusedSpread.C91_hazard_weakMap",
    "Tsgolint.MisusedSpread.C91_hazard_join"
   ],
   "note": "Findings: Object.fromEntries is suggested for WeakMap; `return{...m}` is joined."
  },
  {
   "property": "C92",
   "status": "proved",
   "theorems": [
    "Tsgolint.VoidReturn.C92_function",
    "Tsgolint.VoidReturn.C92_silent",
    "Tsgolint.VoidReturn.C92_expression",
    "Tsgolint.VoidReturn.C92_call",
    "Tsgolint.VoidReturn.C92_members"
   ],
   "note": "The walk over return statements is proved exact for all trees."
  },
  {
   "property": "C93",
   "status": "proved",
   "theorems": [
    "Tsgolint.ReadonlyParam.C93_types",
    "Tsgolint.ReadonlyParam.C93_terminates",
    "Tsgolint.ReadonlyParam.C93_hazard_diverges",
    "Tsgolint.ReadonlyParam.C93_parameter"
   ],
   "note": "Finding: `type T = readonly T[]` overflows the stack."
  },
  {
   "property": "C94",
   "status": "proved",
   "theorems": [
    "Tsgolint.PreferReadonly.C94_list",
    "Tsgolint.PreferReadonly.C94_reports",
    "Tsgolint.PreferReadonly.C94_noticed",
    "Tsgolint.PreferReadonly.C94_safe",
    "Tsgolint.PreferReadonly.C94_hazard_unnoticed",
    "Tsgolint.PreferReadonly.C94_overnoticed",
    "Tsgolint.PreferReadonly.C94_bases",
    "Tsgolint.PreferReadonly.C94_bases_end",
    "Tsgolint.PreferReadonly.C94_relation",
    "Tsgolint.PreferReadonly.C94_fix",
    "Tsgolint.PreferReadonly.C94_hazard_hash",
    "Tsgolint.PreferReadonly.C94_hazard_nested"
   ],
   "note": "Findings: some forms of writing are not noticed; see FINDINGS."
  },
  {
   "property": "C95",
   "status": "proved",
   "theorems": [
    "Tsgolint.TypeParameters.C95_parts",
    "Tsgolint.TypeParameters.C95_roots",
    "Tsgolint.TypeParameters.C95_counts",
    "Tsgolint.TypeParameters.C95_ends",
    "Tsgolint.TypeParameters.C95_reports",
    "Tsgolint.TypeParameters.C95_fix",
    "Tsgolint.TypeParameters.C95_only",
    "Tsgolint.TypeParameters.C95_first",
    "Tsgolint.TypeParameters.C95_later",
    "Tsgolint.TypeParameters.C95_hazard_comma",
    "Tsgolint.TypeParameters.C95_hazard_closing",
    "Tsgolint.TypeParameters.C95_hazard_default"
   ],
   "note": "The second half of C95_counts and C95_reports supposes a single default; C95_hazard_default shows why."
  },
  {
   "property": "C96",
   "status": "proved",
   "theorems": [
    "Tsgolint.MisusedPromises.C96_conditions",
    "Tsgolint.MisusedPromises.C96_conditions_once",
    "Tsgolint.MisusedPromises.C96_always_promise",
    "Tsgolint.MisusedPromises.C96_returns_promise",
    "Tsgolint.MisusedPromises.C96_returns_void",
    "Tsgolint.MisusedPromises.C96_predicates",
    "Tsgolint.MisusedPromises.C96_arguments",
    "Tsgolint.MisusedPromises.C96_arguments_void",
    "Tsgolint.MisusedPromises.C96_arguments_accepted",
    "Tsgolint.MisusedPromises.C96_inherited",
    "Tsgolint.MisusedPromises.C96_values",
    "Tsgolint.MisusedPromises.C96_parenthesised",
    "Tsgolint.MisusedPromises.C96_options"
   ],
   "note": "labels of diagnostics not modelled; checker answers are parameters"
  },
  {
   "property": "C97",
   "status": "proved",
   "theorems": [
    "Tsgolint.TypeContains.C97_missing",
    "Tsgolint.TypeContains.C97_false",
    "Tsgolint.TypeContains.C97_true",
    "Tsgolint.TypeContains.C97_exact",
    "Tsgolint.TypeContains.C97_stable",
    "Tsgolint.TypeContains.C97_answers_finite",
    "Tsgolint.TypeContains.C97_answers_generic",
    "Tsgolint.TypeContains.Sample.C97_cautious"
   ],
   "note": "The checker's answers (parts, arguments, signatures, targets) are parameters. C97_cautious: `true` can be given though nothing occurs (recursive generics)."
  },
  {
   "property": "C98",
   "status": "proved",
   "theorems": [
    "Tsgolint.UnnecessaryAssertion.C98_verdict",
    "Tsgolint.UnnecessaryAssertion.C98_unique",
    "Tsgolint.UnnecessaryAssertion.C98_answers",
    "Tsgolint.UnnecessaryAssertion.C98_safe",
    "Tsgolint.UnnecessaryAssertion.C98_contextual_safe",
    "Tsgolint.UnnecessaryAssertion.C98_double_safe",
    "Tsgolint.UnnecessaryAssertion.C98_exactOptional"
   ],
   "note": "The checker's answers (types, contextual types, assignability, signatures) are parameters; containsAny/containsTypeVariable are those of C97.  `Proper`: the compiler's lists of properties and of constituents have no duplicates."
  },
  {
   "property": "C99",
   "status": "proved",
   "theorems": [
    "Tsgolint.AssertionFix.C99_whiteSpace",
    "Tsgolint.AssertionFix.C99_as",
    "Tsgolint.AssertionFix.C99_ascii",
    "Tsgolint.AssertionFix.C99_noBreakSpace",
    "Tsgolint.AssertionFix.C99_noKeyword",
    "Tsgolint.AssertionFix.C99_angle",
    "Tsgolint.AssertionFix.C99_bang",
    "Tsgolint.AssertionFix.C99_double",
    "Tsgolint.AssertionFix.C99_doc_iff",
    "Tsgolint.AssertionFix.C99_doc",
    "Tsgolint.AssertionFix.C99_plain",
    "Tsgolint.AssertionFix.C99_doc_instead",
    "Tsgolint.AssertionFix.C99_glue",
    "Tsgolint.AssertionFix.C99_glue_angle",
    "Tsgolint.AssertionFix.C99_block",
    "Tsgolint.AssertionFix.C99_parentheses",
    "Tsgolint.AssertionFix.C99_glue_bang"
   ],
   "note": "Positions of nodes and tokens (parser, scanner) and Go's UTF-8 decoding are parameters. C99_glue* , C99_block and C99_parentheses are counterexamples (findings)."
  },
  {
   "property": "C100",
   "status": "proved",
   "theorems": [
    "Tsgolint.NonNull.C100_verdict",
    "Tsgolint.NonNull.C100_expected",
    "Tsgolint.NonNull.C100_unassigned",
    "Tsgolint.NonNull.C100_safe",
    "Tsgolint.NonNull.C100_assigned",
    "Tsgolint.NonNull.C100_property"
   ],
   "note": "The checker's answers are parameters; C100_safe assumes that IsNullableType recognises unions with null or undefined."
  },
  {
   "property": "C101",
   "status": "proved",
   "theorems": [
    "Tsgolint.Nullish.C101_ternary",
    "Tsgolint.Nullish.C101_if",
    "Tsgolint.Nullish.C101_mixed",
    "Tsgolint.Nullish.C101_answers",
    "Tsgolint.Nullish.C101_or"
   ],
   "note": "the types and their parts, the parents of an expression, ast.IsLogicalExpression and ast.IsOptionalChain are given"
  },
  {
   "property": "C102",
   "status": "proved",
   "theorems": [
    "Tsgolint.Nullish.C102_similar",
    "Tsgolint.Nullish.C102_ternary",
    "Tsgolint.Nullish.C102_if",
    "Tsgolint.Nullish.C102_hazard_self",
    "Tsgolint.Nullish.C102_hazard_private",
    "Tsgolint.Nullish.C102_hazard_keys",
    "Tsgolint.Nullish.C102_hazard_update"
   ],
   "note": "evaluation is a given world of values: variables, properties and other operators are arbitrary, reading has no side effects"
  },
  {
   "property": "C103",
   "status": "proved",
   "theorems": [
    "Tsgolint.NullishFix.C103_or",
    "Tsgolint.NullishFix.C103_assign",
    "Tsgolint.NullishFix.C103_unambiguous",
    "Tsgolint.NullishFix.C103_hazard_and",
    "Tsgolint.NullishFix.C103_hazard_mixed"
   ],
   "note": "expressions other than `||`, `&&`, `??`, `!` and parentheses are atoms; evaluating them has no side effects"
  },
  {
   "property": "C104",
   "status": "proved",
   "theorems": [
    "Tsgolint.Deprecated.reason_iff",
    "Tsgolint.Deprecated.symbol_iff",
    "Tsgolint.Deprecated.search_more",
    "Tsgolint.Deprecated.search_found",
    "Tsgolint.Deprecated.search_silent",
    "Tsgolint.Deprecated.search_forever",
    "Tsgolint.Deprecated.search_ends",
    "Tsgolint.Deprecated.circular_forever"
   ],
   "note": "The checker's answers (aliases, declarations, JSDoc) are given; what GetAliasedSymbol returns is assumed not to be an alias itself."
  },
  {
   "property": "C105",
   "status": "proved",
   "theorems": [
    "Tsgolint.Deprecated.call_iff",
    "Tsgolint.Deprecated.other_overload",
    "Tsgolint.Deprecated.destructured_type",
    "Tsgolint.Deprecated.destructured_iff",
    "Tsgolint.Deprecated.shorthand_iff",
    "Tsgolint.Deprecated.plain_iff",
    "Tsgolint.Deprecated.all_parts",
    "Tsgolint.Deprecated.default_reported",
    "Tsgolint.Deprecated.insideImport_iff",
    "Tsgolint.Deprecated.callLike_iff",
    "Tsgolint.Deprecated.check_iff",
    "Tsgolint.Deprecated.specifier_iff",
    "Tsgolint.Deprecated.element_iff",
    "Tsgolint.Deprecated.property_iff",
    "Tsgolint.Deprecated.message_iff",
    "Tsgolint.Deprecated.function_iff",
    "Tsgolint.Deprecated.parameter_type",
    "Tsgolint.Deprecated.object_source",
    "Tsgolint.Deprecated.array_source",
    "Tsgolint.Deprecated.inArray_source",
    "Tsgolint.Deprecated.attribute_iff",
    "Tsgolint.Deprecated.binding_otherwise",
    "Tsgolint.Deprecated.declaration_iff",
    "Tsgolint.Deprecated.shownName_iff",
    "Tsgolint.Deprecated.propertyName_iff"
   ],
   "note": "Whether a name is allowed by the option is a parameter here; the specifier matching itself is the subject of other claims."
  },
  {
   "property": "C106",
   "status": "proved",
   "theorems": [
    "Tsgolint.Condition.truthy_sound",
    "Tsgolint.Condition.falsy_sound",
    "Tsgolint.Condition.condition_exact",
    "Tsgolint.Condition.intersection_iff",
    "Tsgolint.Condition.empty_object",
    "Tsgolint.Condition.verdict_iff",
    "Tsgolint.Condition.throughIndex_dead",
    "Tsgolint.Condition.check_iff",
    "Tsgolint.Condition.check_sound",
    "Tsgolint.Condition.mode_iff",
    "Tsgolint.Condition.loop_iff",
    "Tsgolint.Condition.predicate_iff",
    "Tsgolint.Condition.guarded_iff",
    "Tsgolint.Condition.alwaysNecessary_iff",
    "Tsgolint.Condition.access_iff",
    "Tsgolint.Condition.resolved_iff"
   ],
   "note": "Types of expressions, index types and constraints come from the checker. Exactness is for types without intersections; for intersections the exact condition is intersection_iff."
  },
  {
   "property": "C107",
   "status": "proved",
   "theorems": [
    "Tsgolint.Condition.nullish_iff",
    "Tsgolint.Condition.checkNullish_iff",
    "Tsgolint.Condition.checkNullish_sound",
    "Tsgolint.Condition.conditional_reported",
    "Tsgolint.Condition.intersection_reported",
    "Tsgolint.Condition.union_missed",
    "Tsgolint.Condition.hasOptional_build",
    "Tsgolint.Condition.optionalIndex_iff",
    "Tsgolint.Condition.noOverlap_sound",
    "Tsgolint.Condition.literals_sound",
    "Tsgolint.Condition.compare_iff",
    "Tsgolint.Condition.comparable_iff",
    "Tsgolint.Condition.null_less"
   ],
   "note": "Types of expressions come from the checker. Which member expressions are nullable (isNullableMemberExpression) is a parameter here."
  },
  {
   "property": "C108",
   "status": "proved",
   "theorems": [
    "Tsgolint.CodeBox.firstOff_iff",
    "Tsgolint.CodeBox.lastEnd_iff",
    "Tsgolint.CodeBox.box_says",
    "Tsgolint.CodeBox.shows_code",
    "Tsgolint.CodeBox.end_iff",
    "Tsgolint.CodeBox.tooBig_iff",
    "Tsgolint.CodeBox.blank_panics",
    "Tsgolint.CodeBox.carriage_return_panics",
    "Tsgolint.CodeBox.message_says",
    "Tsgolint.CodeBox.message_panics"
   ],
   "note": "Line maps, the decoding of UTF-8, unicode.IsSpace and the scanner's GetECMAEndLinePosition are parameters; colours and the header line are not modelled. The text has less than 2^62 bytes."
  },
  {
   "property": "C109",
   "status": "proved",
   "theorems": [
    "Tsgolint.Cli.selected_iff",
    "Tsgolint.Cli.inside_node_modules",
    "Tsgolint.Cli.listing_line",
    "Tsgolint.Cli.config_iff",
    "Tsgolint.Cli.run_cases",
    "Tsgolint.Cli.exit_iff",
    "Tsgolint.Cli.findings_ignored",
    "Tsgolint.Cli.finished_iff",
    "Tsgolint.Cli.table_aligned",
    "Tsgolint.Cli.table_lines",
    "Tsgolint.Cli.plural_iff",
    "Tsgolint.Cli.names_distinct",
    "Tsgolint.Cli.names_short",
    "Tsgolint.Cli.rule_found"
   ],
   "note": "Parsing of flags, path resolution, the file system, the creation of the program and linting (see C01-C03, C53-C54) are parameters of the environment; tracing and profiling only as success or failure. Text is a list of characters, the cells of the table are ASCII."
  },
  {
   "property": "C110",
   "status": "proved",
   "theorems": [
    "Tsgolint.OptionalChain.eq_iff",
    "Tsgolint.OptionalChain.equal_same",
    "Tsgolint.OptionalChain.isPrefix_iff",
    "Tsgolint.OptionalChain.prefix_nullish",
    "Tsgolint.OptionalChain.sideEffects_iff",
    "Tsgolint.OptionalChain.blocked_iff",
    "Tsgolint.OptionalChain.compare_iff",
    "Tsgolint.OptionalChain.increments_missed"
   ],
   "note": "Evaluation is in a world without effects, so that an expression has the same value each time; trivia inside expressions is not modelled."
  },
  {
   "property": "C111",
   "status": "proved",
   "theorems": [
    "Tsgolint.OptionalChain.operands_spec",
    "Tsgolint.OptionalChain.operands_value",
    "Tsgolint.OptionalChain.operand_tells",
    "Tsgolint.OptionalChain.plain_iff",
    "Tsgolint.OptionalChain.plain_expr",
    "Tsgolint.OptionalChain.not_iff",
    "Tsgolint.OptionalChain.comparison_shape",
    "Tsgolint.OptionalChain.or_kinds",
    "Tsgolint.OptionalChain.trailing_safe",
    "Tsgolint.OptionalChain.trailing_unsafe",
    "Tsgolint.OptionalChain.trailing_missed",
    "Tsgolint.OptionalChain.trailing_order",
    "Tsgolint.OptionalChain.or_safe"
   ],
   "note": "Equality with null and undefined is JavaScript's, without document.all; types are the parts of their union."
  },
  {
   "property": "C112",
   "status": "proved",
   "theorems": [
    "Tsgolint.OptionalChain.and_chains",
    "Tsgolint.OptionalChain.trim_spec",
    "Tsgolint.OptionalChain.and_whole",
    "Tsgolint.OptionalChain.comparison_first",
    "Tsgolint.OptionalChain.inconsistent_iff",
    "Tsgolint.OptionalChain.or_chains",
    "Tsgolint.OptionalChain.or_whole",
    "Tsgolint.OptionalChain.badStart_iff",
    "Tsgolint.OptionalChain.badStart_skipped",
    "Tsgolint.OptionalChain.badStart_later"
   ],
   "note": "Types are parameters, as the parts of their union."
  },
  {
   "property": "C113",
   "status": "proved",
   "theorems": [
    "Tsgolint.OptionalChain.rebuild",
    "Tsgolint.OptionalChain.rebuild_or",
    "Tsgolint.OptionalChain.untouched",
    "Tsgolint.OptionalChain.taken_apart_value",
    "Tsgolint.OptionalChain.parentheses_lost",
    "Tsgolint.OptionalChain.last_character_lost"
   ],
   "note": "Texts are without trivia."
  },
  {
   "property": "C114",
   "status": "proved",
   "theorems": [
    "Tsgolint.OptionalChain.and_meaning",
    "Tsgolint.OptionalChain.comparison_meaning",
    "Tsgolint.OptionalChain.comparison_lost",
    "Tsgolint.OptionalChain.parentheses_broken",
    "Tsgolint.OptionalChain.typeof_guard_lost",
    "Tsgolint.OptionalChain.gaps_filled",
    "Tsgolint.OptionalChain.ending_eq",
    "Tsgolint.OptionalChain.kept_meaning",
    "Tsgolint.OptionalChain.typeof_meaning",
    "Tsgolint.OptionalChain.kept_typeof_meaning",
    "Tsgolint.OptionalChain.marks",
    "Tsgolint.OptionalChain.plain_marks",
    "Tsgolint.OptionalChain.longer_root"
   ],
   "note": "Texts are without trivia."
  },
  {
   "property": "C115",
   "status": "proved",
   "theorems": [
    "Tsgolint.OptionalChain.or_meaning",
    "Tsgolint.OptionalChain.or_comparison_meaning",
    "Tsgolint.OptionalChain.sides_swapped",
    "Tsgolint.OptionalChain.other_side_lost",
    "Tsgolint.OptionalChain.marks_lost",
    "Tsgolint.OptionalChain.keepsTest_iff",
    "Tsgolint.OptionalChain.or_kept_meaning",
    "Tsgolint.OptionalChain.or_plain_code"
   ],
   "note": "Texts are without trivia; a final typeof check loses its other side (finding other_side_lost)."
  },
  {
   "property": "C116",
   "status": "proved",
   "theorems": [
    "Tsgolint.OptionalChain.empty_iff",
    "Tsgolint.OptionalChain.empty_suggested",
    "Tsgolint.OptionalChain.empty_text",
    "Tsgolint.OptionalChain.empty_head",
    "Tsgolint.OptionalChain.empty_meaning",
    "Tsgolint.OptionalChain.key_mistaken",
    "Tsgolint.OptionalChain.assigned_too",
    "Tsgolint.OptionalChain.assertion_kept"
   ],
   "note": "Texts are without trivia."
  },
  {
   "property": "C117",
   "status": "proved",
   "theorems": [
    "Tsgolint.OptionalChain.and_reported",
    "Tsgolint.OptionalChain.and_types",
    "Tsgolint.OptionalChain.types_unused",
    "Tsgolint.OptionalChain.and_complete",
    "Tsgolint.OptionalChain.and_trailing",
    "Tsgolint.OptionalChain.reported_meaning",
    "Tsgolint.OptionalChain.automatic_access",
    "Tsgolint.OptionalChain.automatic_comparison",
    "Tsgolint.OptionalChain.unsafe_automatic",
    "Tsgolint.OptionalChain.reportsAnd_iff",
    "Tsgolint.OptionalChain.candidate_iff",
    "Tsgolint.OptionalChain.andSuggests_iff",
    "Tsgolint.OptionalChain.assignment_dropped",
    "Tsgolint.OptionalChain.addition_kept"
   ],
   "note": "Safety of the end is for the equality operators: other operators count as safe (findings assignment_dropped, addition_kept)."
  },
  {
   "property": "C118",
   "status": "proved",
   "theorems": [
    "Tsgolint.OptionalChain.or_reported",
    "Tsgolint.OptionalChain.or_trailing",
    "Tsgolint.OptionalChain.or_after_equality",
    "Tsgolint.OptionalChain.or_after_typeof",
    "Tsgolint.OptionalChain.or_no_strict_negated",
    "Tsgolint.OptionalChain.or_reported_meaning",
    "Tsgolint.OptionalChain.or_suggested",
    "Tsgolint.OptionalChain.reportsOr_iff",
    "Tsgolint.OptionalChain.orSuggests_iff",
    "Tsgolint.OptionalChain.loose_then_null",
    "Tsgolint.OptionalChain.cut_unguarded",
    "Tsgolint.OptionalChain.undefined_then_null"
   ],
   "note": "The meaning is preserved for chains that begin with a negation; for those that begin with an equality it is not (findings loose_then_null, cut_unguarded, undefined_then_null)."
  },
  {
   "property": "C119",
   "status": "proved",
   "theorems": [
    "Tsgolint.OptionalChain.replaced_text",
    "Tsgolint.OptionalChain.whole_text",
    "Tsgolint.OptionalChain.replaced_value",
    "Tsgolint.OptionalChain.part_alike",
    "Tsgolint.OptionalChain.kept_alike",
    "Tsgolint.OptionalChain.spine_replaced",
    "Tsgolint.OptionalChain.and_part",
    "Tsgolint.OptionalChain.or_part",
    "Tsgolint.OptionalChain.kept_iff",
    "Tsgolint.OptionalChain.range_broken"
   ],
   "note": "With parentheses around operands the range can begin outside and end inside them (finding range_broken)."
  },
  {
   "property": "C120",
   "status": "proved",
   "theorems": [
    "Tsgolint.Condition.reported_not_nullish",
    "Tsgolint.Condition.removable",
    "Tsgolint.Condition.direct_iff",
    "Tsgolint.Condition.property_iff",
    "Tsgolint.Condition.index_iff",
    "Tsgolint.Condition.call_iff",
    "Tsgolint.Condition.plain_call_iff",
    "Tsgolint.Condition.call_property_iff",
    "Tsgolint.Condition.element_iff",
    "Tsgolint.Condition.names_spec",
    "Tsgolint.Condition.skips_iff",
    "Tsgolint.Condition.skipped_not_reported",
    "Tsgolint.Condition.guarded_index",
    "Tsgolint.Condition.nullableProperty_iff",
    "Tsgolint.Condition.nullableMember_property",
    "Tsgolint.Condition.nullableMember_element",
    "Tsgolint.Condition.nullableMember_paren",
    "Tsgolint.Condition.operand_iff",
    "Tsgolint.Condition.operandType_iff",
    "Tsgolint.Condition.propertyType_iff",
    "Tsgolint.Condition.callType_iff",
    "Tsgolint.Condition.chainedType_iff",
    "Tsgolint.Condition.chainedElement_iff",
    "Tsgolint.Condition.optionable_iff"
   ],
   "note": "The types of the checker are parameters, right about the execution (structure Agrees): values are of their types, properties and calls of every part of a union are typed, unions are flat, no unresolved conditional types; operands of an unconstrained type parameter's type are excluded. Private names looked up through an index signature are not covered by Agrees (finding)."
  },
  {
   "property": "C121",
   "status": "proved",
   "theorems": [
    "Tsgolint.Condition.guardCall_iff"
   ],
   "note": "Resolved signatures, predicates and types of arguments are parameters; checkNode is C106."
  },
  {
   "property": "C122",
   "status": "proved",
   "theorems": [
    "Tsgolint.OptionalVisit.judged_eq",
    "Tsgolint.OptionalVisit.judged_partition",
    "Tsgolint.OptionalVisit.jsx_not_judged"
   ],
   "note": "Trees are tokens, parentheses, logical operators and other nodes with children in the order of the text; their ranges are computed from the lengths of the tokens."
  },
  {
   "property": "C123",
   "status": "proved",
   "theorems": [
    "Tsgolint.Snapshot.compare_natural",
    "Tsgolint.Snapshot.compare_order",
    "Tsgolint.Snapshot.numbers_in_order",
    "Tsgolint.Snapshot.render_deterministic",
    "Tsgolint.Snapshot.written_sorted"
   ],
   "note": "sort.Slice is any function that returns an ordered permutation."
  },
  {
   "property": "C124",
   "status": "proved",
   "theorems": [
    "Tsgolint.Snapshot.round_trip",
    "Tsgolint.Snapshot.dashes_lost"
   ],
   "note": "Errors of the file system are not modelled."
  },
  {
   "property": "C125",
   "status": "proved",
   "theorems": [
    "Tsgolint.Snapshot.run_load",
    "Tsgolint.Snapshot.run_disk",
    "Tsgolint.Snapshot.schedule",
    "Tsgolint.Snapshot.run_persists",
    "Tsgolint.Snapshot.no_update_keeps",
    "Tsgolint.Snapshot.second_run"
   ],
   "note": "The mutexes make each call one step; crashes while the file is written and other processes are not modelled."
  },
  {
   "property": "C126",
   "status": "proved",
   "theorems": [
    "Tsgolint.StaticValue.follow_iff",
    "Tsgolint.StaticValue.endless_iff",
    "Tsgolint.StaticValue.ends_bound",
    "Tsgolint.StaticValue.staticString_sound",
    "Tsgolint.StaticValue.nullishKind_sound",
    "Tsgolint.StaticValue.isCharacter_iff",
    "Tsgolint.StaticValue.hazard_assigned",
    "Tsgolint.StaticValue.hazard_self"
   ],
   "note": "The three searches are instances of one function, with fuel; that Go's stack overflows on an endless recursion is not part of the model."
  },
  {
   "property": "C127",
   "status": "proved",
   "theorems": [
    "Tsgolint.RuleTester.valid_iff",
    "Tsgolint.RuleTester.invalid_iff",
    "Tsgolint.RuleTester.skipped_iff",
    "Tsgolint.RuleTester.run_passes",
    "Tsgolint.RuleTester.rounds_iff"
   ],
   "note": "Programs are made without errors; the linter is a function of the code; the testing package (failures, FailNow) is modelled by the result of the case."
  },
  {
   "property": "C128",
   "status": "proved",
   "theorems": [
    "Tsgolint.VoidReturn.C128_listen",
    "Tsgolint.VoidReturn.C128_names"
   ],
   "note": "Extends C92 to the listeners; contextual types, symbols and signatures are the compiler's."
  },
  {
   "property": "C129",
   "status": "proved",
   "theorems": [
    "Tsgolint.TemplateSingle.C129_reported",
    "Tsgolint.TemplateSingle.C129_otherwise",
    "Tsgolint.TemplateSingle.C129_meaning",
    "Tsgolint.TemplateSingle.C129_parentheses",
    "Tsgolint.TemplateSingle.C129_grammar",
    "Tsgolint.TemplateSingle.C129_text",
    "Tsgolint.TemplateSingle.C129_hazard_parent",
    "Tsgolint.TemplateSingle.C129_hazard_keyword"
   ],
   "note": "The precedence table and the grammar are parameters; the law assumed of the grammar is stated. Hazards: parents that are no expressions (initialisers with a comma expression, array types of unions), templates glued to a keyword."
  },
  {
   "property": "C130",
   "status": "proved",
   "theorems": [
    "Tsgolint.Annotate.C130_tabs",
    "Tsgolint.Annotate.C130_marks",
    "Tsgolint.Annotate.C130_lines",
    "Tsgolint.Annotate.C130_order",
    "Tsgolint.Annotate.C130_alignment",
    "Tsgolint.Annotate.C130_heading",
    "Tsgolint.Annotate.C130_hazard_columns"
   ],
   "note": "The scanner's positions are a parameter, assumed to count bytes (as it does in ASCII text without carriage returns); the hazard shows what happens otherwise."
  },
  {
   "property": "C131",
   "status": "proved",
   "theorems": [
    "Tsgolint.StartsEnds.C131_text",
    "Tsgolint.StartsEnds.C131_nullish",
    "Tsgolint.StartsEnds.C131_regex",
    "Tsgolint.StartsEnds.C131_test",
    "Tsgolint.StartsEnds.C131_parentheses",
    "Tsgolint.StartsEnds.C131_hazard_circular",
    "Tsgolint.StartsEnds.C131_hazard_let"
   ],
   "note": "Expressions are nodes of an arbitrary graph; regular expression literals are assumed well written. Findings: endless recursion on circular initialisers; `let` variables are followed."
  },
  {
   "property": "C132",
   "status": "proved",
   "theorems": [
    "Tsgolint.Comments.C132_visited",
    "Tsgolint.Comments.C132_has_iff",
    "Tsgolint.Comments.C132_ranges",
    "Tsgolint.Comments.C132_disjoint",
    "Tsgolint.Comments.C132_hazard_behind"
   ],
   "note": "The two comment scanners of typescript-go are part of the model (their source is not in the repository); positions other than the beginning of the file."
  },
  {
   "property": "C133",
   "status": "proved",
   "theorems": [
    "Tsgolint.TypeNames.C133_truncate",
    "Tsgolint.TypeNames.C133_length",
    "Tsgolint.TypeNames.C133_value",
    "Tsgolint.TypeNames.C133_comparison",
    "Tsgolint.TypeNames.C133_guard",
    "Tsgolint.TypeNames.C133_hazard_alike"
   ],
   "note": "Names of types are given by the checker, as valid UTF-8."
  },
  {
   "property": "C134",
   "status": "proved",
   "theorems": [
    "Tsgolint.ConditionPlaces.C134_judged",
    "Tsgolint.ConditionPlaces.C134_nullish"
   ],
   "note": "Which tests of loops are exempt is a parameter (C106); which arguments are asserted too (C121)."
  },
  {
   "property": "C135",
   "status": "proved",
   "theorems": [
    "Tsgolint.GroupPlaces.C135_examined"
   ],
   "note": "What happens with duplicates and types that cannot be resolved is C48."
  },
  {
   "property": "C136",
   "status": "proved",
   "theorems": [
    "Tsgolint.OptionalMemo.C136_history",
    "Tsgolint.OptionalMemo.C136_shared"
   ],
   "note": "Nodes are addresses; the checker's answers are a function of the node. C136_shared: slices in the cache are written to in place, so that a later reader sees the change; by C112 and C122 no other chain reads them."
  },
  {
   "property": "C137",
   "status": "proved",
   "theorems": [
    "Tsgolint.AccessType.C137_exact",
    "Tsgolint.AccessType.C137_sound",
    "Tsgolint.AccessType.C137_verdict",
    "Tsgolint.AccessType.C137_hazard_mixed"
   ],
   "note": "The checker's answers are parameters, right about the values (structure Agrees). Finding: keys 'a' | number with a number index signature only."
  },
  {
   "property": "C138",
   "status": "proved",
   "theorems": [
    "Tsgolint.RemoveAsync.C138_named",
    "Tsgolint.RemoveAsync.C138_decides",
    "Tsgolint.RemoveAsync.C138_semicolon",
    "Tsgolint.RemoveAsync.C138_text",
    "Tsgolint.RemoveAsync.C138_separate",
    "Tsgolint.RemoveAsync.C138_hazard_modifiers",
    "Tsgolint.RemoveAsync.C138_hazard_comment",
    "Tsgolint.RemoveAsync.C138_hazard_hidden"
   ],
   "note": "Scanner positions and the token after async are parameters. Findings: semicolon written after the modifiers, in an object literal after a comment, missing after a comment that ends with a semicolon."
  },
  {
   "property": "C139",
   "status": "proved",
   "theorems": [
    "Tsgolint.Wrapping.C139_reads",
    "Tsgolint.Wrapping.C139_exec",
    "Tsgolint.Wrapping.C139_hazard_new",
    "Tsgolint.Wrapping.C139_removed",
    "Tsgolint.Wrapping.C139_negated",
    "Tsgolint.Wrapping.C139_satisfies",
    "Tsgolint.Wrapping.C139_hazard_typeof",
    "Tsgolint.Wrapping.C139_hazard_nonNull"
   ],
   "note": "Grammar and parser are a specification on tokens (Spec/Expression); optional chains, ** and the ban on mixing ?? are left out. Findings: new C without arguments; satisfies below typeof, void, delete and before !."
  },
  {
   "property": "C140",
   "status": "proved",
   "theorems": [
    "Tsgolint.SpreadPlaces.C140_once",
    "Tsgolint.SpreadPlaces.C140_only",
    "Tsgolint.SpreadPlaces.C140_rest",
    "Tsgolint.SpreadPlaces.C140_hazard_new",
    "Tsgolint.SpreadPlaces.C140_hazard_loop",
    "Tsgolint.SpreadPlaces.C140_hazard_default",
    "Tsgolint.SpreadPlaces.C140_hazard_name"
   ],
   "note": "Findings: arguments of new; heads of for loops; nested patterns with a default value; computed names in patterns."
  },
  {
   "property": "C141",
   "status": "proved",
   "theorems": [
    "Tsgolint.Highlights.C141_node",
    "Tsgolint.Highlights.C141_loop",
    "Tsgolint.Highlights.C141_function",
    "Tsgolint.Highlights.C141_function_plain",
    "Tsgolint.Highlights.C141_hazard_decorator",
    "Tsgolint.Highlights.C141_arrow",
    "Tsgolint.Highlights.C141_returnType",
    "Tsgolint.Highlights.C141_as",
    "Tsgolint.Highlights.C141_angle",
    "Tsgolint.Highlights.C141_exclamation",
    "Tsgolint.Highlights.C141_member",
    "Tsgolint.Highlights.C141_parameter",
    "Tsgolint.Highlights.C141_parameterProperty",
    "Tsgolint.Highlights.C141_parenless"
   ],
   "note": "Positions of the parser and the tokens of the scanner are given by the layout of the text (Reads). Findings: white space before the arrow; decorators without another modifier."
  },
  {
   "property": "C142",
   "status": "proved",
   "theorems": [
    "Tsgolint.FixParts.C142_before",
    "Tsgolint.FixParts.C142_after",
    "Tsgolint.FixParts.C142_replace",
    "Tsgolint.FixParts.C142_remove",
    "Tsgolint.FixParts.C142_range",
    "Tsgolint.FixParts.C142_around",
    "Tsgolint.FixParts.C142_before_replace",
    "Tsgolint.FixParts.C142_either"
   ],
   "note": "The first token of a node is what the scanner reads (Reads)."
  },
  {
   "property": "C143",
   "status": "proved",
   "theorems": [
    "Tsgolint.FunctionKinds.C143_typeParameters",
    "Tsgolint.FunctionKinds.C143_typeParameters_other",
    "Tsgolint.FunctionKinds.C143_parameters",
    "Tsgolint.FunctionKinds.C143_functions",
    "Tsgolint.FunctionKinds.C143_hazard_setter"
   ],
   "note": "Uses C22 (each node is visited once). Finding: parameters of setters are not checked (C143_hazard_setter)."
  }
 ]
}