F="Tsgolint.Fixer."
CLAIMS=[
("C01","proved",[F+"C01_output_is_simultaneous_edit"],"Hypothesis: no inverted fix range (pos <= end). Aliased fixes slices are not modelled."),
("C02","proved",[F+"C02_all_or_nothing",F+"C02_no_fix_no_change"],""),
("C03","proved",[F+"C03_dropped_only_by_overlap",F+"C03_independent_all_applied"],""),
("C04","proved",[F+"C04_no_panic",F+"C04_single_message_panics_iff",F+"C04_self_overlap_panics"],""),
("C05","proved",[F+"C05_order_independent",F+"C05_equal_keys_order_dependent"],"The negative theorem shows the distinct-key hypothesis is needed."),
]
R="Tsgolint.Framing."
CLAIMS+=[("C06","proved",[R+"C06_round_trip",R+"C06_injective",R+"C06_truncated",R+"C06_header",R+"C06_marshal_error_writes_nothing",R+"C06_oversized_not_recoverable"],"json.Marshal is a parameter; write errors of the OS are not modelled."),]
P="Tsgolint.Pipeline."
CLAIMS+=[
("C07","proved",[P+n for n in ["C07_success_output","C07_success_decoded","C07_prefix_at_every_instant","C07_crash_decoded","C07_no_deadlock","C07_terminates","C07_exit_zero"]],"Small-step model of all goroutines; what each file lint reports is a parameter."),
("C08","proved",[P+n for n in ["C08_error_output","C08_diagnostic_can_be_lost","C08_frames_can_be_corrupted"]],"The stronger guarantee (intact frames on the error path) is false of the code; two witness executions prove it."),
("C16","proved",[P+n for n in ["C16_each_file_linted_once","C16_program_returns_complete","C16_never_started_twice"]],"Deadlock freedom and termination are C07_no_deadlock and C07_terminates on the same model."),
("C17","proved",[P+"C17_checker_exclusive"],""),
]
R="Tsgolint.ResolverPool."
CLAIMS+=[("C13","proved",[R+n for n in ["C13_result","C13_never_wrong","C13_no_deadlock","C13_terminates"]],"The single-file lookup is a pure parameter.")]
R="Tsgolint.Payload."
CLAIMS+=[("C09","proved",[R+n for n in ["C09_v1_means_v2","C09_v1_no_files_rejected","C09_accepted_v1"]],"The JSON library is modelled by its documented decoding rules."),
("C10","proved",[R+n for n in ["C10_version_2","C10_accepted_is_v2","C10_v2_round_trip","C10_unset_null_zero","C10_other_rejected","C10_bad_version_rejected","C10_unknown_member_ignored","C10_not_an_object_rejected"]],"Error message texts are modelled by kind only.")]
R="Tsgolint.Workload."
CLAIMS+=[("C11","proved",[R+n for n in ["C11_last_config_wins","C11_last_request_spec","C11_requested_files","C11_end_to_end","C11_slashes","C11_rules_for_file"]],"That the program reports the source file under its normalised name is external."),
("C12","proved",[R+n for n in ["C12_buckets","C12_exactly_once","C12_longest_first","C12_order_independent"]],"")]
R="Tsgolint.Bfs."
CLAIMS+=[("C14","proved",[R+n for n in ["C14_terminates","C14_visits","C14_stops_iff","C14_shortest_path","C14_fallback"]],"PreprocessLevel is not modelled (its only use changes nothing).")]
R="Tsgolint.FindTsconfig."
CLAIMS+=[("C15","proved",[R+n for n in ["C15_sound_and_nearest","C15_complete","C15_terminates","C15_disableSolutionSearching_ignored"]],"typescript-go's config registry is a pure parameter; includes the finding that disableSolutionSearching is ignored.")]
R="Tsgolint.Worker."
CLAIMS+=[("C18","proved",[R+"C18_exact_report",R+"C18_attribution"],"Rules are stateful parameters: a listener may answer according to its whole history in that file."),
("C19","proved",[R+"C19_files_independent",R+"C19_workers_agree"],""),
("C20","proved",[R+"C20_rules_independent"],""),
("C21","proved",[R+"C21_deterministic"],""),
("C24","proved",[R+"C24_same_reports",R+"C24_call_counts",R+"C24_calls_per_file"],"The clock is a parameter.")]
R="Tsgolint.Visit."
CLAIMS+=[("C22","proved",[R+n for n in ["C22_nested","C22_each_node_once","C22_parent_surrounds","C22_events_of_node","C22_reached_or_skipped"]],"Besides names of property assignments in patterns, JSDoc modifiers/types attached to an assignment are skipped too."),
("C23","proved",[R+"C23_no_collision",R+"C23_bound_needed"],"Hypothesis: syntax kinds are below 1000 (typescript-go has a few hundred).")]
R="Tsgolint.Timing."
CLAIMS+=[("C25","proved",[R+n for n in ["C25_records","C25_schedule_independent","C25_total_calls","C25_message"]],"")]
R="Tsgolint.Emit."
CLAIMS+=[("C26","proved",[R+n for n in ["C26_only_when_requested","C26_carried_over","C26_panics_iff","C26_generators","C26_never_run","C26_end_to_end","C26_internal"]],"The JSON encoding itself is not modelled.")]
R="Tsgolint.Run."
CLAIMS+=[("C27","proved",[R+n for n in ["C27_exactly_requested","C27_syntactic_per_file"]],"typescript-go's diagnostics are parameters."),
("C28","proved",[R+n for n in ["C28_returned","C28_stops_iff","C28_order_independent","C28_invalid_iff","C28_invalid_diagnostics"]],"typescript-go (config parser, program) is a parameter.")]
R="Tsgolint.Headless."
CLAIMS+=[("C29","proved",[R+"C29_exit_code"],"Flag parsing, profiling and stdin are modelled by their outcomes."),
("C41","proved",[R+"C41_pieces",R+"C41_debug_option"],"")]
CLAIMS+=[("C49","proved",[R+"C49_end_to_end"],"Composition of the models of payload, workload, driver, worker, conversion and pipeline; typescript-go and JSON are parameters.")]

R="Tsgolint.Vfs."
CLAIMS+=[("C30","proved",[R+n for n in ["C30_override_wins","C30_rest_delegated","C30_no_leak","C30_headless","C30_unnormalised_override_ignored"]],"Includes the finding that override keys are not slash-normalised while lookups are."),
("C31","proved",[R+n for n in ["C31_repeatable","C31_sequential","C31_stable_disk","C31_race"]],"C31_race exhibits the interleaving in which two concurrent first reads differ."),
("C32","proved",[R+n for n in ["C32_same_object","C32_right_object"]],""),
("C33","proved",[R+n for n in ["C33_directory_exists","C33_entries","C33_coherent","C33_virtual_files_read_only"]],"")]

R="Tsgolint.StringLiteral."
CLAIMS+=[("C34","proved",[R+n for n in ["C34_denotes","C34_injective","C34_one_line","C34_plain_unchanged"]],"")]
R="Tsgolint.Slices."
CLAIMS+=[("C35","proved",[R+n for n in ["C35_filterIndex","C35_filter","C35_filter_calls","C35_filter_may_alias","C35_flatten","C35_map","C35_map_pure","C35_tryMap","C35_some","C35_some_calls","C35_every","C35_every_calls","C35_set_has","C35_set_len","C35_set_fromItems"]],"C35_filter_may_alias: Filter returns its input slice itself when nothing is dropped.")]
R="Tsgolint.Options."
CLAIMS+=[("C36","proved",[R+n for n in ["C36_bool","C36_meaning","C36_trichotomy","C36_round_trip"]],"The inner type's reader and writer are parameters."),
("C50","proved",[R+n for n in ["C50_given","C50_default","C50_exactly_the_options","C50_panics_iff","C50_documented","C50_none_is_empty","C50_return_await","C50_checks_void_return","C50_checks_void_return_object","C50_checks_void_return_other"]],"Option tables and documented defaults are generated from the rules' options.go and schema files by tools/gen_options.py.")]
R="Tsgolint.Specifier."
CLAIMS+=[("C37","proved",[R+n for n in ["C37_accepted","C37_rejected","C37_round_trip","C37_reread","C37_universal"]],""),
("C38","proved",[R+n for n in ["C38_type","C38_symbol","C38_package_of_path","C38_scoped_package_of_path","C38_outside_node_modules","C38_nearest_package_json","C38_file_prefix_not_directory","C38_value"]],"typescript-go's declarations, file names and tspath are parameters.")]

R="Tsgolint.TypeGraph."
CLAIMS+=[("C39","proved",[R+n for n in ["C39_terminates","C39_unique","C39_exact","C39_panic","C39_new_map"]],"Types are the elements of an arbitrary, possibly cyclic graph; typescript-go's flags and type arguments are functions on it."),
("C40","proved",[R+n for n in ["C40_exact","C40_terminates","C40_unique","C40_condition_needed"]],"C40_exact assumes that awaiting is complete (as getAwaitedType is); C40_condition_needed shows what happens otherwise."),
("C51","proved",[R+n for n in ["C51_builtin_like","C51_terminates","C51_symbol_like","C51_any_symbol_like","C51_matches_base","C51_matches_terminates"]],"Termination under well-foundedness of parts, constraints and base types."),
("C52","proved",[R+n for n in ["C52_name_string","C52_name_other","C52_signatures","C52_thenable","C52_awaitable"]],"")]

R="Tsgolint.ConsistentReturn."
CLAIMS+=[("C42","proved",[R+n for n in ["C42_exact","C42_count","C42_void","C42_void_terminates"]],"What the checker says about a return (undefined? void?) is part of the labels / a parameter.")]
R="Tsgolint.RequireAwait."
CLAIMS+=[("C43","proved",[R+n for n in ["C43_exact","C43_once","C43_semicolon","C43_unwraps","C43_renames"]],"Thenable-ness and token positions are parameters.")]
R="Tsgolint.ReturnAwait."
CLAIMS+=[("C44","proved",[R+n for n in ["C44_exact","C44_consistent","C44_adds","C44_removes"]],"Whether an expression is a promise and its precedence are parameters.")]
R="Tsgolint.RuleTree."
CLAIMS+=[("C53","proved",[R+n for n in ["C53_nested","C53_functions_apart","C53_isolated"]],"")]
R="Tsgolint.Switch."
CLAIMS+=[("C45","proved",[R+n for n in ["C45_exact","C45_missing","C45_exclusive","C45_complete","C45_terminates","C45_suggestion","C45_line","C45_test"]],"Types are elements of an arbitrary graph; typescript-go's flags, names and case types are parameters.")]
R="Tsgolint.MixedEnums."
CLAIMS+=[("C46","proved",[R+n for n in ["C46_exact","C46_mixed","C46_panics_iff"]],"Includes the finding that an enum whose first declaration has no members panics the rule.")]
R="Tsgolint.Template."
CLAIMS+=[("C47","proved",[R+n for n in ["C47_preserves","C47_escape","C47_escape_template","C47_hazard_null","C47_hazard_cr","C47_unnecessary","C47_literal_edits","C47_nested_edits"]],"C47_preserves excludes texts that end in \\0 or a carriage return; C47_hazard_null and C47_hazard_cr show that the fixer does go wrong there (finding).")]
R="Tsgolint.Duplicates."
CLAIMS+=[("C48","proved",[R+n for n in ["C48_exact","C48_only","C48_distinct","C48_covered","C48_unnecessary","C48_first","C48_group_kept","C48_union","C48_intersection","C48_hazard","C48_fix_before","C48_fix_after","C48_fix_panics"]],"C48_union and C48_intersection exclude groups with the type of something in them; C48_hazard shows the fixer losing values there (finding). Scanner tokens are parameters.")]
R="Tsgolint.BooleanCompare."
CLAIMS+=[("C54","proved",[R+n for n in ["C54_reported_iff","C54_same_condition","C54_same_value","C54_fix_text","C54_operands","C54_surroundings","C54_hazard_precedence","C54_hazard_other_types"]],"The meaning theorems assume that the expression can only be boolean or nullish; the hazard theorems show what happens otherwise (findings).")]
R="Tsgolint.StartsEnds."
CLAIMS+=[("C55","proved",[R+n for n in ["C55_comparison","C55_report_fix","C55_slices","C55_end_slices","C55_regex","C55_match","C55_split","C55_quote","C55_fix_right","C55_fix_argument","C55_fix_match","C55_fix_test","C55_hazard_octal","C55_hazard_quote","C55_hazard_lastIndexOf","C55_hazard_empty","C55_hazard_end","C55_hazard_tokens","C55_hazard_parentheses"]],"Proved outside the situations the hazard theorems show to go wrong (findings). Assumes variables keep their initial value, as the rule does.")]
R="Tsgolint.Includes."
CLAIMS+=[("C56","proved",[R+n for n in ["C56_table","C56_reported_iff","C56_strings","C56_arrays","C56_pattern","C56_literal","C56_fix_compare","C56_fix_test","C56_hazard_arrays","C56_hazard_optional","C56_hazard_backslash","C56_hazard_apostrophe","C56_hazard_flags"]]+["Tsgolint.IncludesTest."+n for n in ["C56_test_iff","C56_test_valid","C56_hazard_spread","C56_hazard_let"]],"C56_pattern is for harmless patterns (defined in the specification); the hazard theorems show accepted patterns and comparisons that are changed in meaning (findings).")]
R="Tsgolint.DotNotation."
CLAIMS+=[("C57","proved",[R+n for n in ["C57_computed_iff","C57_dotted_iff","C57_stable","C57_relevant","C57_skip_iff","C57_fix_computed","C57_fix_optional","C57_hazard_comment","C57_integer","C57_space","C57_fix_dotted","C57_fix_dotted_optional"]],"Comments between the brackets are lost by the fix (C57_hazard_comment).")]
R="Tsgolint.PlusOperands."
CLAIMS+=[("C58","proved",[R+n for n in ["C58_exact","C58_sound","C58_symmetric","C58_operators"]],"Types, flags and constraints are the compiler's. C58_sound is about values of the kinds the flags describe; `object`, unconstrained type parameters and branded intersections have none of these flags and are not reported (finding).")]
R="Tsgolint.StrictBoolean."
CLAIMS+=[("C59","proved",[R+n for n in ["C59_conditions","C59_classify","C59_order","C59_strict","C59_no_confusion","C59_hazard_enum","C59_hazard_brand","C59_messages","C59_asserted"]],"C59_strict and C59_no_confusion exclude enums (and C59_no_confusion intersections): the hazard theorems show why (findings).")]
R="Tsgolint.EnumComparison."
CLAIMS+=[("C60","proved",[R+n for n in ["C60_exact","C60_symmetric","C60_operators","C60_static","C60_key","C60_suggest","C60_suffix","C60_qualifier","C60_hazard_dotted"]],"Types, symbols, constants and IEEE arithmetic are parameters.")]
R="Tsgolint.Redundant."
CLAIMS+=[("C61","proved",[R+n for n in ["C61_union","C61_union_sound","C61_union_top","C61_intersection_flat","C61_intersection_union","C61_intersection_flat_sound","C61_intersection_union_sound","C61_hazard_text","C61_hazard_never","C61_hazard_boolean"]],"Types of nodes come from the compiler. Hazards: texts repeated and swapped, (never | string) & x, boolean behind a reference.")]
R="Tsgolint.BaseToString."
CLAIMS+=[("C62","proved",[R+n for n in ["C62_answers_exist","C62_answers_unique","C62_history","C62_reports","C62_checks","C62_terminates","C62_hazard_order","C62_hazard_intersection"]],"What the compiler says of types is a parameter. C62_hazard_order: with type A = [B, {}]; type B = [A] an expression of type B is reported or not depending on whether one of type A was checked before.")]
R="Tsgolint.Floating."
CLAIMS+=[("C63","proved",[R+n for n in ["C63_floating","C63_messages","C63_handler","C63_useless","C63_fix","C63_fix_void","C63_hazard_parens","C63_hazard_comma","C63_hazard_finally","C63_hazard_stored"]],"Hypothesis Spine excludes exactly the shapes for which the hazards show the claim false. C63_hazard_parens: `c ? (p.catch(f)) : q` is reported.")]
R="Tsgolint.AwaitThenable."
CLAIMS+=[("C64","proved",[R+n for n in ["C64_await","C64_elements","C64_argument","C64_for_await","C64_await_using","C64_fix","C64_hazard_iterable","C64_hazard_lines"]],"hazards: iterables that are no arrays are judged by their first type argument; removing await can join two lines")]
R="Tsgolint.RestrictTemplate."
CLAIMS+=[("C65","proved",[R+n for n in ["C65_exact","C65_terminates","C65_diverges","C65_monotone","C65_report"]],"finding: with allowArray a recursive array type makes the check recurse for ever (C65_diverges)")]
R="Tsgolint.NonNullable."
CLAIMS+=[("C66","proved",[R+n for n in ["C66_reported","C66_fix","C66_hazard_angle"]],"finding: for `<T>e` the suggestion keeps the assertion; ast.IsAssertionExpression is external and taken to be true of both kinds")]
R="Tsgolint.Accessors."
CLAIMS+=[("C67","proved",[R+n for n in ["C67_sound","C67_complete","C67_names","C67_same_names","C67_hazard_static","C67_hazard_quoted"]],"findings: static and instance accessors of the same name are paired with each other; quoted and unquoted names are not paired")]
R="Tsgolint.ArrayDelete."
CLAIMS+=[("C68","proved",[R+n for n in ["C68_reported","C68_fix","C68_hazard_optional","C68_hazard_comma","C68_hazard_nested"]],"findings: `delete a?.[i]` and comma expressions are rewritten wrongly")]
R="Tsgolint.Errors."
CLAIMS+=[("C69","proved",[R+n for n in ["C69_throw","C69_reject"]],"type predicates are parameters (C26, C27, C51, C52)")]
R="Tsgolint.SmallRules."
CLAIMS+=[("C70","proved",[R+n for n in ["C70_void","C70_void_fix","C70_sort","C70_for_in","C70_minus","C70_hazard_union"]],"finding: unions of string arrays are reported although ignoreStringArrays is on"),("C71","proved",[R+n for n in ["C71_reduce","C71_fix_as","C71_fix_angle","C71_hazard_const"]],"finding: `as const` gives `reduce< const>`")]
R="Tsgolint.PromiseAsync."
CLAIMS+=[("C72","proved",[R+n for n in ["C72_wholly","C72_possibly","C72_terminates","C72_report","C72_async","C72_fix"]]+["Tsgolint.AsyncPlaces.C72_kinds"],"promises are recognised by symbol name only")]
R="Tsgolint.Qualifier."
CLAIMS+=[("C73","proved",[R+n for n in ["C73_reports","C73_same_symbol","C73_hazard_shadow","C73_fix"]],"finding: a parameter hiding an exported constant is overlooked")]
R="Tsgolint.RegexpExec."
CLAIMS+=[("C74","proved",[R+n for n in ["C74_flags","C74_static","C74_terminates","C74_no_global","C74_reports","C74_literal","C74_hazard_literal","C74_hazard_copy","C74_fix"]],"findings: empty patterns, escaped slashes, copies of global regular expressions")]
R="Tsgolint.ImpliedEval."
CLAIMS+=[("C75","proved",[R+n for n in ["C75_reports","C75_hazard"]],"finding: any call named bind passes for a function")]
R="Tsgolint.TypeArguments."
CLAIMS+=[("C76","proved",[R+n for n in ["C76_same","C76_reported","C76_safe","C76_hazard_parameter","C76_hazard_call","C76_type_declaration","C76_value_declaration","C76_found","C76_fix","C76_places","C76_hazard_interface"]],"findings: defaults that are parameters of their own declaration; ordinary calls may be re-inferred; `extends` of an interface is looked at as a value")]
R="Tsgolint.UnboundMethod."
CLAIMS+=[("C77","proved",[R+n for n in ["C77_safe","C77_call_safe","C77_hazard_logical","C77_type_declaration","C77_judge","C77_panics","C77_native","C77_access","C77_binding"]]+["Tsgolint.UnboundPatterns."+n for n in ["C77_literal_pattern","C77_binding_pattern","C77_once","C77_hazard_names"]],"findings: panic on an unannotated this parameter; (a.m || b)() counts as safe")]
R="Tsgolint.VoidExpression."
CLAIMS+=[("C78","proved",[R+n for n in ["C78_void_function","C78_reports","C78_statement","C78_hazard_comma","C78_final","C78_fix_void","C78_fix_arrow","C78_fix_last","C78_fix_return"]],"finding: the right operand of a comma is reported even if unused")]
R="Tsgolint.PreferFind."
CLAIMS+=[("C79","proved",[R+n for n in ["C79_static","C79_terminates","C79_zero_at","C79_zero_member","C79_arrayish","C79_filters","C79_reports","C79_total","C79_value","C79_start","C79_fix","C79_hazard_holes","C79_hazard_range","C79_hazard_optional"]],"findings: `?.at(0)` leaves a question mark, out-of-range numeric strings count as zero, holes")]
R="Tsgolint.UnsafeAccess."
CLAIMS+=[("C80","proved",[R+n for n in ["C80_members","C80_names","C80_covered","C80_once","C80_hazard_parentheses"]],"finding: (x.a).b is reported twice where x.a.b is reported once"),("C81","proved",[R+n for n in ["C81_reported","C81_this"]],"IsBuiltinSymbolLike is C39/C40 machinery (TypeGraph)")]
R="Tsgolint.UnsafeArgument."
CLAIMS+=[("C82","proved",[R+n for n in ["C82_parameter","C82_total","C82_argument","C82_tuple","C82_spread","C82_callee","C82_hazard_iterable","C82_hazard_middle"]],"IsUnsafeAssignment itself is C39; after a spread iterable (which the compiler accepts only for a rest parameter) positions are unknown")]
R="Tsgolint.UnsafeReturn."
CLAIMS+=[("C83","proved",[R+n for n in ["C83_any","C83_assignment","C83_function","C83_label","C83_hazard_promise"]]+["Tsgolint.ReturnPlaces.C83_places"],"Finding: a promise of any returned by a function that is not async is never reported.")]
R="Tsgolint.UnsafeAssignment."
CLAIMS+=[("C84","proved",[R+n for n in ["C84_destructuring","C84_order","C84_assignment","C84_full","C84_object_literal","C84_array_literal","C84_place","C84_hazard_hole"]]+["Tsgolint.UnsafePlaces.C84_places"],"Findings: the object literal listener stops at a member initialised by an assignment; holes of array assignment patterns are reported.")]
R="Tsgolint.TypeAssertion."
CLAIMS+=[("C85","proved",[R+n for n in ["C85_reported","C85_accepted"]],"Relative to the checker's assignability; IsUnsafeAssignment is the modelled one (C39).")]
R="Tsgolint.ReturnThis."
CLAIMS+=[("C86","proved",[R+n for n in ["C86_reported","C86_fix","C86_hazard_union"]]+["Tsgolint.ReturnThisPlaces."+n for n in ["C86_places","C86_hazard_parens"]],"Findings: values of unions with the class do not stop the report; properties whose value is a function in parentheses are not checked.")]
R="Tsgolint.CatchCallback."
CLAIMS+=[("C87","proved",[R+n for n in ["C87_callbacks","C87_argument","C87_message","C87_replaces","C87_inserts","C87_hazard_panic","C87_hazard_this"]],"Findings: panic on an empty tuple rest parameter; a `this` parameter is annotated instead of the error variable.")]
R="Tsgolint.TypeConversion."
CLAIMS+=[("C88","proved",[R+n for n in ["C88_reported","C88_names","C88_keeps_value","C88_fix","C88_texts","C88_plusEquals","C88_hazard_range","C88_hazard_join","C88_hazard_if"]],"Findings: ~~ on literals beyond 32 bits is reported; removal may join words or make the next statement conditional.")]
R="Tsgolint.DefaultAssignment."
CLAIMS+=[("C89","proved",[R+n for n in ["C89_binding","C89_parameter","C89_undefined","C89_none","C89_automatic","C89_never_used","C89_parameter_never_used","C89_fix","C89_fix_optional","C89_hazard_computed","C89_hazard_rest","C89_hazard_array","C89_hazard_void","C89_hazard_this","C89_hazard_pattern"]],"Findings: computed keys, rest tuples, defaults in between over arrays, void, `this`, patterns losing their optionality.")]
R="Tsgolint.TypeExports."
CLAIMS+=[("C90","proved",[R+n for n in ["C90_terminates","C90_resolution","C90_reported","C90_message","C90_fix","C90_inline","C90_star","C90_star_fix","C90_hazard_lost","C90_hazard_join"]],"Findings: the fix drops specifiers that are not resolved; `export*` becomes `exporttype *`.")]
R="Tsgolint.MisusedSpread."
CLAIMS+=[("C91","proved",[R+n for n in ["C91_object","C91_array","C91_map","C91_map_fix","C91_map_wrap","C91_await","C91_hazard_weakMap","C91_hazard_join"]],"Findings: Object.fromEntries is suggested for WeakMap; `return{...m}` is joined.")]
R="Tsgolint.VoidReturn."
CLAIMS+=[("C92","proved",[R+n for n in ["C92_function","C92_silent","C92_expression","C92_call","C92_members"]],"The walk over return statements is proved exact for all trees.")]
R="Tsgolint.ReadonlyParam."
CLAIMS+=[("C93","proved",[R+n for n in ["C93_types","C93_terminates","C93_hazard_diverges","C93_parameter"]],"Finding: `type T = readonly T[]` overflows the stack.")]
R="Tsgolint.PreferReadonly."
CLAIMS+=[("C94","proved",[R+n for n in ["C94_list","C94_reports","C94_noticed","C94_safe","C94_hazard_unnoticed","C94_overnoticed","C94_bases","C94_bases_end","C94_relation","C94_fix","C94_hazard_hash","C94_hazard_nested"]],"Findings: some forms of writing are not noticed; see FINDINGS.")]
R="Tsgolint.TypeParameters."
CLAIMS+=[("C95","proved",[R+n for n in ["C95_parts","C95_roots","C95_counts","C95_ends","C95_reports","C95_fix","C95_only","C95_first","C95_later","C95_hazard_comma","C95_hazard_closing","C95_hazard_default"]],"The second half of C95_counts and C95_reports supposes a single default; C95_hazard_default shows why.")]
R="Tsgolint.MisusedPromises."
CLAIMS+=[("C96","proved",[R+n for n in ["C96_conditions","C96_conditions_once","C96_always_promise","C96_returns_promise","C96_returns_void","C96_predicates","C96_arguments","C96_arguments_void","C96_arguments_accepted","C96_inherited","C96_values","C96_parenthesised","C96_options"]],"labels of diagnostics not modelled; checker answers are parameters")]
R="Tsgolint.TypeContains."
CLAIMS+=[("C97","proved",[R+n for n in ["C97_missing","C97_false","C97_true","C97_exact","C97_stable","C97_answers_finite","C97_answers_generic","Sample.C97_cautious"]],"The checker's answers (parts, arguments, signatures, targets) are parameters. C97_cautious: `true` can be given though nothing occurs (recursive generics).")]
R="Tsgolint.UnnecessaryAssertion."
CLAIMS+=[("C98","proved",[R+n for n in ["C98_verdict","C98_unique","C98_answers","C98_safe","C98_contextual_safe","C98_double_safe","C98_exactOptional"]],"The checker's answers (types, contextual types, assignability, signatures) are parameters; containsAny/containsTypeVariable are those of C97.  `Proper`: the compiler's lists of properties and of constituents have no duplicates.")]
R="Tsgolint.AssertionFix."
CLAIMS+=[("C99","proved",[R+n for n in ["C99_whiteSpace","C99_as","C99_ascii","C99_noBreakSpace","C99_noKeyword","C99_angle","C99_bang","C99_double","C99_doc_iff","C99_doc","C99_plain","C99_doc_instead","C99_glue","C99_glue_angle","C99_block","C99_parentheses","C99_glue_bang"]],"Positions of nodes and tokens (parser, scanner) and Go's UTF-8 decoding are parameters. C99_glue* , C99_block and C99_parentheses are counterexamples (findings).")]
R="Tsgolint.NonNull."
CLAIMS+=[("C100","proved",[R+n for n in ["C100_verdict","C100_expected","C100_unassigned","C100_safe","C100_assigned","C100_property"]],"The checker's answers are parameters; C100_safe assumes that IsNullableType recognises unions with null or undefined.")]
R="Tsgolint.Nullish."
CLAIMS+=[("C101","proved",[R+n for n in ["C101_ternary","C101_if","C101_mixed","C101_answers","C101_or"]],"the types and their parts, the parents of an expression, ast.IsLogicalExpression and ast.IsOptionalChain are given")]
R="Tsgolint.Nullish."
CLAIMS+=[("C102","proved",[R+n for n in ["C102_similar","C102_ternary","C102_if","C102_hazard_self","C102_hazard_private","C102_hazard_keys","C102_hazard_update"]],"evaluation is a given world of values: variables, properties and other operators are arbitrary, reading has no side effects")]
R="Tsgolint.NullishFix."
CLAIMS+=[("C103","proved",[R+n for n in ["C103_or","C103_assign","C103_unambiguous","C103_hazard_and","C103_hazard_mixed"]],"expressions other than `||`, `&&`, `??`, `!` and parentheses are atoms; evaluating them has no side effects")]
R="Tsgolint.Deprecated."
CLAIMS+=[("C104","proved",[R+n for n in ["reason_iff","symbol_iff","search_more","search_found","search_silent","search_forever","search_ends","circular_forever"]],"The checker's answers (aliases, declarations, JSDoc) are given; what GetAliasedSymbol returns is assumed not to be an alias itself.")]
CLAIMS+=[("C105","proved",[R+n for n in ["call_iff","other_overload","destructured_type","destructured_iff","shorthand_iff","plain_iff","all_parts","default_reported","insideImport_iff","callLike_iff","check_iff","specifier_iff","element_iff","property_iff","message_iff","function_iff","parameter_type","object_source","array_source","inArray_source","attribute_iff","binding_otherwise","declaration_iff","shownName_iff","propertyName_iff"]],"Whether a name is allowed by the option is a parameter here; the specifier matching itself is the subject of other claims.")]
R="Tsgolint.Condition."
CLAIMS+=[("C106","proved",[R+n for n in ["truthy_sound","falsy_sound","condition_exact","intersection_iff","empty_object","verdict_iff","throughIndex_dead","check_iff","check_sound","mode_iff","loop_iff","predicate_iff","guarded_iff","alwaysNecessary_iff","access_iff","resolved_iff"]],"Types of expressions, index types and constraints come from the checker. Exactness is for types without intersections; for intersections the exact condition is intersection_iff.")]
CLAIMS+=[("C107","proved",[R+n for n in ["nullish_iff","checkNullish_iff","checkNullish_sound","conditional_reported","intersection_reported","union_missed","hasOptional_build","optionalIndex_iff","noOverlap_sound","literals_sound","compare_iff","comparable_iff","null_less"]],"Types of expressions come from the checker. Which member expressions are nullable (isNullableMemberExpression) is a parameter here.")]
R="Tsgolint.CodeBox."
CLAIMS+=[("C108","proved",[R+n for n in ["firstOff_iff","lastEnd_iff","box_says","shows_code","end_iff","tooBig_iff","blank_panics","carriage_return_panics","message_says","message_panics"]],"Line maps, the decoding of UTF-8, unicode.IsSpace and the scanner's GetECMAEndLinePosition are parameters; colours and the header line are not modelled. The text has less than 2^62 bytes.")]
R="Tsgolint.Cli."
CLAIMS+=[("C109","proved",[R+n for n in ["selected_iff","inside_node_modules","listing_line","config_iff","run_cases","exit_iff","findings_ignored","finished_iff","table_aligned","table_lines","plural_iff","names_distinct","names_short","rule_found"]],"Parsing of flags, path resolution, the file system, the creation of the program and linting (see C01-C03, C53-C54) are parameters of the environment; tracing and profiling only as success or failure. Text is a list of characters, the cells of the table are ASCII.")]
R="Tsgolint.OptionalChain."
CLAIMS+=[("C110","proved",[R+n for n in ["eq_iff","equal_same","isPrefix_iff","prefix_nullish","sideEffects_iff","blocked_iff","compare_iff","increments_missed"]],"Evaluation is in a world without effects, so that an expression has the same value each time; trivia inside expressions is not modelled.")]
R="Tsgolint.OptionalChain."
CLAIMS+=[("C111","proved",[R+n for n in ["operands_spec","operands_value","operand_tells","plain_iff","plain_expr","not_iff","comparison_shape","or_kinds","trailing_safe","trailing_unsafe","trailing_missed","trailing_order","or_safe"]],"Equality with null and undefined is JavaScript's, without document.all; types are the parts of their union.")]
R="Tsgolint.OptionalChain."
CLAIMS+=[("C112","proved",[R+n for n in ["and_chains","trim_spec","and_whole","comparison_first","inconsistent_iff","or_chains","or_whole","badStart_iff","badStart_skipped","badStart_later"]],"Types are parameters, as the parts of their union.")]
R="Tsgolint.OptionalChain."
CLAIMS+=[("C113","proved",[R+n for n in ["rebuild","rebuild_or","untouched","taken_apart_value","parentheses_lost","last_character_lost"]],"Texts are without trivia.")]
R="Tsgolint.OptionalChain."
CLAIMS+=[("C114","proved",[R+n for n in ["and_meaning","comparison_meaning","comparison_lost","parentheses_broken","typeof_guard_lost","gaps_filled","ending_eq","kept_meaning","typeof_meaning","kept_typeof_meaning","marks","plain_marks","longer_root"]],"Texts are without trivia.")]
R="Tsgolint.OptionalChain."
CLAIMS+=[("C115","proved",[R+n for n in ["or_meaning","or_comparison_meaning","sides_swapped","other_side_lost","marks_lost","keepsTest_iff","or_kept_meaning","or_plain_code"]],"Texts are without trivia; a final typeof check loses its other side (finding other_side_lost).")]
R="Tsgolint.OptionalChain."
CLAIMS+=[("C116","proved",[R+n for n in ["empty_iff","empty_suggested","empty_text","empty_head","empty_meaning","key_mistaken","assigned_too","assertion_kept"]],"Texts are without trivia.")]
R="Tsgolint.OptionalChain."
CLAIMS+=[("C117","proved",[R+n for n in ["and_reported","and_types","types_unused","and_complete","and_trailing","reported_meaning","automatic_access","automatic_comparison","unsafe_automatic","reportsAnd_iff","candidate_iff","andSuggests_iff","assignment_dropped","addition_kept"]],"Safety of the end is for the equality operators: other operators count as safe (findings assignment_dropped, addition_kept).")]
R="Tsgolint.OptionalChain."
CLAIMS+=[("C118","proved",[R+n for n in ["or_reported","or_trailing","or_after_equality","or_after_typeof","or_no_strict_negated","or_reported_meaning","or_suggested","reportsOr_iff","orSuggests_iff","loose_then_null","cut_unguarded","undefined_then_null"]],"The meaning is preserved for chains that begin with a negation; for those that begin with an equality it is not (findings loose_then_null, cut_unguarded, undefined_then_null).")]
R="Tsgolint.OptionalChain."
CLAIMS+=[("C119","proved",[R+n for n in ["replaced_text","whole_text","replaced_value","part_alike","kept_alike","spine_replaced","and_part","or_part","kept_iff","range_broken"]],"With parentheses around operands the range can begin outside and end inside them (finding range_broken).")]
R="Tsgolint.Condition."
CLAIMS+=[("C120","proved",[R+n for n in ["reported_not_nullish","removable","direct_iff","property_iff","index_iff","call_iff","plain_call_iff","call_property_iff","element_iff","names_spec","skips_iff","skipped_not_reported","guarded_index","nullableProperty_iff","nullableMember_property","nullableMember_element","nullableMember_paren","operand_iff","operandType_iff","propertyType_iff","callType_iff","chainedType_iff","chainedElement_iff","optionable_iff"]],"The types of the checker are parameters, right about the execution (structure Agrees): values are of their types, properties and calls of every part of a union are typed, unions are flat, no unresolved conditional types; operands of an unconstrained type parameter's type are excluded. Private names looked up through an index signature are not covered by Agrees (finding).")]
CLAIMS+=[("C121","proved",[R+"guardCall_iff"],"Resolved signatures, predicates and types of arguments are parameters; checkNode is C106.")]
R="Tsgolint.OptionalVisit."
CLAIMS+=[("C122","proved",[R+n for n in ["judged_eq","judged_partition","jsx_not_judged"]],"Trees are tokens, parentheses, logical operators and other nodes with children in the order of the text; their ranges are computed from the lengths of the tokens.")]
R="Tsgolint.Snapshot."
CLAIMS+=[("C123","proved",[R+n for n in ["compare_natural","compare_order","numbers_in_order","render_deterministic","written_sorted"]],"sort.Slice is any function that returns an ordered permutation.")]
CLAIMS+=[("C124","proved",[R+n for n in ["round_trip","dashes_lost"]],"Errors of the file system are not modelled.")]
CLAIMS+=[("C125","proved",[R+n for n in ["run_load","run_disk","schedule","run_persists","no_update_keeps","second_run"]],"The mutexes make each call one step; crashes while the file is written and other processes are not modelled.")]
R="Tsgolint.StaticValue."
CLAIMS+=[("C126","proved",[R+n for n in ["follow_iff","endless_iff","ends_bound","staticString_sound","nullishKind_sound","isCharacter_iff","hazard_assigned","hazard_self"]],"The three searches are instances of one function, with fuel; that Go's stack overflows on an endless recursion is not part of the model.")]
R="Tsgolint.RuleTester."
CLAIMS+=[("C127","proved",[R+n for n in ["valid_iff","invalid_iff","skipped_iff","run_passes","rounds_iff"]],"Programs are made without errors; the linter is a function of the code; the testing package (failures, FailNow) is modelled by the result of the case.")]
R="Tsgolint.VoidReturn."
CLAIMS+=[("C128","proved",[R+n for n in ["C128_listen","C128_names"]],"Extends C92 to the listeners; contextual types, symbols and signatures are the compiler's.")]
R="Tsgolint.TemplateSingle."
CLAIMS+=[("C129","proved",[R+n for n in ["C129_reported","C129_otherwise","C129_meaning","C129_parentheses","C129_grammar","C129_text","C129_hazard_parent","C129_hazard_keyword"]],"The precedence table and the grammar are parameters; the law assumed of the grammar is stated. Hazards: parents that are no expressions (initialisers with a comma expression, array types of unions), templates glued to a keyword.")]
R="Tsgolint.Annotate."
CLAIMS+=[("C130","proved",[R+n for n in ["C130_tabs","C130_marks","C130_lines","C130_order","C130_alignment","C130_heading","C130_hazard_columns"]],"The scanner's positions are a parameter, assumed to count bytes (as it does in ASCII text without carriage returns); the hazard shows what happens otherwise.")]
R="Tsgolint.StartsEnds."
CLAIMS+=[("C131","proved",[R+n for n in ["C131_text","C131_nullish","C131_regex","C131_test","C131_parentheses","C131_hazard_circular","C131_hazard_let"]],"Expressions are nodes of an arbitrary graph; regular expression literals are assumed well written. Findings: endless recursion on circular initialisers; `let` variables are followed.")]
R="Tsgolint.Comments."
CLAIMS+=[("C132","proved",[R+n for n in ["C132_visited","C132_has_iff","C132_ranges","C132_disjoint","C132_hazard_behind"]],"The two comment scanners of typescript-go are part of the model (their source is not in the repository); positions other than the beginning of the file.")]
R="Tsgolint.TypeNames."
CLAIMS+=[("C133","proved",[R+n for n in ["C133_truncate","C133_length","C133_value","C133_comparison","C133_guard","C133_hazard_alike"]],"Names of types are given by the checker, as valid UTF-8.")]
R="Tsgolint.ConditionPlaces."
CLAIMS+=[("C134","proved",[R+n for n in ["C134_judged","C134_nullish"]],"Which tests of loops are exempt is a parameter (C106); which arguments are asserted too (C121).")]
R="Tsgolint.GroupPlaces."
CLAIMS+=[("C135","proved",[R+n for n in ["C135_examined"]],"What happens with duplicates and types that cannot be resolved is C48.")]
R="Tsgolint.OptionalMemo."
CLAIMS+=[("C136","proved",[R+n for n in ["C136_history","C136_shared"]],"Nodes are addresses; the checker's answers are a function of the node. C136_shared: slices in the cache are written to in place, so that a later reader sees the change; by C112 and C122 no other chain reads them.")]
R="Tsgolint.AccessType."
CLAIMS+=[("C137","proved",[R+n for n in ["C137_exact","C137_sound","C137_verdict","C137_hazard_mixed"]],"The checker's answers are parameters, right about the values (structure Agrees). Finding: keys 'a' | number with a number index signature only.")]
R="Tsgolint.RemoveAsync."
CLAIMS+=[("C138","proved",[R+n for n in ["C138_named","C138_decides","C138_semicolon","C138_text","C138_separate","C138_hazard_modifiers","C138_hazard_comment","C138_hazard_hidden"]],"Scanner positions and the token after async are parameters. Findings: semicolon written after the modifiers, in an object literal after a comment, missing after a comment that ends with a semicolon.")]
R="Tsgolint.Wrapping."
CLAIMS+=[("C139","proved",[R+n for n in ["C139_reads","C139_exec","C139_hazard_new","C139_removed","C139_negated","C139_satisfies","C139_hazard_typeof","C139_hazard_nonNull"]],"Grammar and parser are a specification on tokens (Spec/Expression); optional chains, ** and the ban on mixing ?? are left out. Findings: new C without arguments; satisfies below typeof, void, delete and before !.")]
R="Tsgolint.SpreadPlaces."
CLAIMS+=[("C140","proved",[R+n for n in ["C140_once","C140_only","C140_rest","C140_hazard_new","C140_hazard_loop","C140_hazard_default","C140_hazard_name"]],"Findings: arguments of new; heads of for loops; nested patterns with a default value; computed names in patterns.")]
R="Tsgolint.Highlights."
CLAIMS+=[("C141","proved",[R+n for n in ["C141_node","C141_loop","C141_function","C141_function_plain","C141_hazard_decorator","C141_arrow","C141_returnType","C141_as","C141_angle","C141_exclamation","C141_member","C141_parameter","C141_parameterProperty","C141_parenless"]],"Positions of the parser and the tokens of the scanner are given by the layout of the text (Reads). Findings: white space before the arrow; decorators without another modifier.")]
R="Tsgolint.FixParts."
CLAIMS+=[("C142","proved",[R+n for n in ["C142_before","C142_after","C142_replace","C142_remove","C142_range","C142_around","C142_before_replace","C142_either"]],"The first token of a node is what the scanner reads (Reads).")]
R="Tsgolint.FunctionKinds."
CLAIMS+=[("C143","proved",[R+n for n in ["C143_typeParameters","C143_typeParameters_other","C143_parameters","C143_functions","C143_hazard_setter"]],"Uses C22 (each node is visited once). Finding: parameters of setters are not checked (C143_hazard_setter).")]
