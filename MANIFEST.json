{
 "claims": [
  {
   "property": "C01",
   "status": "proved",
   "theorems": [
    "Verif.Runtime.C01_latest_uncancelled_mock"
   ],
   "note": "all histories"
  },
  {
   "property": "C02",
   "status": "proved",
   "theorems": [
    "Verif.Runtime.C02_cancel_removes_exactly_own",
    "Verif.Runtime.C02_cancel_panics_iff"
   ],
   "note": "all seven registries share one model of push/cancel"
  },
  {
   "property": "C03",
   "status": "proved",
   "theorems": [
    "Verif.Runtime.C03_double_cancel_panics"
   ],
   "note": ""
  },
  {
   "property": "C04",
   "status": "proved",
   "theorems": [
    "Verif.Runtime.C04_goroutine_isolation"
   ],
   "note": ""
  },
  {
   "property": "C05",
   "status": "proved",
   "theorems": [
    "Verif.Runtime.C05_inherits_snapshot",
    "Verif.Runtime.C05_later_independent"
   ],
   "note": ""
  },
  {
   "property": "C06",
   "status": "proved",
   "theorems": [
    "Verif.Runtime.C06_global_permanent"
   ],
   "note": ""
  },
  {
   "property": "C09",
   "status": "partial",
   "theorems": [
    "Verif.Runtime.C09_counterexample",
    "Verif.Runtime.C09_unbound_recorders_partial"
   ],
   "note": "false of the code: cloneFuncRecordMapping drops wantRecvPtr; proved for unbound recorders"
  },
  {
   "property": "C07",
   "status": "partial",
   "theorems": [
    "Verif.Runtime.Exec.C07_mock_only_for_its_instance",
    "Verif.Runtime.Exec.C07_recorder_pre_only_for_its_instance",
    "Verif.Runtime.Exec.C07_recorder_post_counterexample",
    "Verif.Runtime.Exec.C07_recorder_post_partial"
   ],
   "note": "mocks and pre hooks proved; false for post hooks of recorders (shared loop variable), proved when only the last handler of a list has a post hook"
  },
  {
   "property": "C08",
   "status": "partial",
   "theorems": [
    "Verif.Runtime.Exec.C08_counterexample",
    "Verif.Runtime.Exec.C08_last_bound_mock_partial"
   ],
   "note": "false of the code; only the mock installed last is ever consulted"
  },
  {
   "property": "C10",
   "status": "proved",
   "theorems": [
    "Verif.Runtime.Exec.C10_one_implementation",
    "Verif.Runtime.Exec.C10_which_implementation"
   ],
   "note": "every run of every program with re-entrant hooks, panics, recovery"
  },
  {
   "property": "C11",
   "status": "partial",
   "theorems": [
    "Verif.Runtime.Exec.C11_pre_order",
    "Verif.Runtime.Exec.C11_onion_partial",
    "Verif.Runtime.Exec.C11_counterexample",
    "Verif.Runtime.Exec.C11_counterexample_nil",
    "Verif.Runtime.C11_handler_order"
   ],
   "note": "pre hook order proved; post hooks wrong in the code for several post hooks (shared loop variable under go 1.14), proved when only the last handler has one"
  },
  {
   "property": "C12",
   "status": "partial",
   "theorems": [
    "Verif.Runtime.Exec.C12_general_interceptors_never_nested",
    "Verif.Runtime.Exec.C12_interception_terminates",
    "Verif.Runtime.Exec.C12_no_trace_in_hooks_partial",
    "Verif.Runtime.Exec.C12_trace_counterexample"
   ],
   "note": "interceptor part proved in full; trace part false for aborted calls inside hooks"
  },
  {
   "property": "C13",
   "status": "proved",
   "theorems": [
    "Verif.Runtime.Exec.C13_depth_balanced",
    "Verif.Runtime.Exec.C13_interceptors_stay_enabled"
   ],
   "note": ""
  },
  {
   "property": "C14",
   "status": "partial",
   "theorems": [
    "Verif.Runtime.Exec.C14_trace_is_call_tree_partial",
    "Verif.Runtime.Exec.C14_traced_iff",
    "Verif.Runtime.Exec.C14_counterexample",
    "Verif.Runtime.Stack.C14_exported_trace_partial"
   ],
   "note": "false when a mock panics (entry never finished); proved when no hook panics"
  },
  {
   "property": "C15",
   "status": "proved",
   "theorems": [
    "Verif.Runtime.Stack.C15_ids",
    "Verif.Runtime.Stack.C15_each_entry_once"
   ],
   "note": "any sequence of stack operations, including abandoned entries and go statements"
  },
  {
   "property": "C16",
   "status": "partial",
   "theorems": [
    "Verif.Runtime.Stack.C16_times_nest_partial",
    "Verif.Runtime.Stack.C16_counterexample",
    "Verif.Runtime.Stack.C16_no_entry_ends_before_it_begins"
   ],
   "note": "false when a hook panics; proved for all runs without hook panics"
  },
  {
   "property": "C17",
   "status": "partial",
   "theorems": [
    "Verif.Runtime.C17_counterexample",
    "Verif.Runtime.C17_view_kept_partial",
    "Verif.Runtime.C17_recording_drops_all"
   ],
   "note": "false of the code: finishing a trace detaches the stack holding the registrations"
  },
  {
   "property": "C18",
   "status": "partial",
   "theorems": [
    "Verif.Runtime.C18_counterexample",
    "Verif.Runtime.C18_no_residue_partial"
   ],
   "note": "false on goroutines with registrations"
  },
  {
   "property": "C19",
   "status": "partial",
   "theorems": [
    "Verif.Runtime.Var.C19_read_partial",
    "Verif.Runtime.Var.C19_variable_untouched",
    "Verif.Runtime.Var.C19_address_unaffected_by_value_mocks",
    "Verif.Runtime.Var.C19_counterexample"
   ],
   "note": "false when recorders with and without post hook are mixed (the read panics); proved otherwise, for all histories"
  },
  {
   "property": "C20",
   "status": "partial",
   "theorems": [
    "Verif.Runtime.Build.C20_counterexample",
    "Verif.Runtime.Build.C20_single_hook_partial",
    "Verif.Runtime.Build.C20_pre_argument_type_partial",
    "Verif.Runtime.Build.C20_post_pointer_counterexample"
   ],
   "note": "false of the code: record.go:59 has the comparison inverted, so pre+post always panics; proved for a single hook"
  },
  {
   "property": "C21",
   "status": "proved",
   "theorems": [
    "Verif.Runtime.Build.C21_replacer_plumbing"
   ],
   "note": "values are untyped in the model"
  },
  {
   "property": "C22",
   "status": "partial",
   "theorems": [
    "Verif.Runtime.Build.C22_counterexample",
    "Verif.Runtime.Build.C22_right_type_crashes",
    "Verif.Runtime.Build.C22_patch_by_name_partial"
   ],
   "note": "false of the code: no replacer is ever accepted by PatchMethodByName (object.go:171 loop bound); proved for PatchByName"
  },
  {
   "property": "C23",
   "status": "proved",
   "theorems": [
    "Verif.Runtime.CallValue.C23_post_error",
    "Verif.Runtime.CallValue.C23_mock_error",
    "Verif.Runtime.CallValue.C23_errmocked_aborts",
    "Verif.Runtime.CallValue.C23_errmocked_never_visible",
    "Verif.Runtime.CallValue.C23_pre_error_lost",
    "Verif.Runtime.Build.C23_interceptor_fields",
    "Verif.Runtime.Build.C23_get_field"
   ],
   "note": ""
  },
  {
   "property": "C43",
   "status": "partial",
   "theorems": [
    "Verif.Runtime.Slice.C43_counterexample",
    "Verif.Runtime.Slice.C43_counterexample_push",
    "Verif.Runtime.Slice.C43_copied_partial",
    "Verif.Runtime.Slice.C43_push_only_partial",
    "Verif.Runtime.Slice.C43_lifo_partial"
   ],
   "note": "false of the code: cancelling shifts the array being iterated; proved for push-only hooks, LIFO cancels, and when init-time handlers exist"
  },
  {
   "property": "C27",
   "status": "proved",
   "theorems": [
    "Verif.Text.C27_bytes",
    "Verif.Text.C27_call_order_irrelevant",
    "Verif.Text.C27_bytes_no_effect",
    "Verif.Text.C27_untouched_ends",
    "Verif.Text.C27_one_insert",
    "Verif.Text.C27_one_replace"
   ],
   "note": ""
  },
  {
   "property": "C28",
   "status": "partial",
   "theorems": [
    "Verif.Support.Pattern.C28_match_partial",
    "Verif.Support.Pattern.C28_match_any_partial",
    "Verif.Support.Pattern.C28_prefix_complete_partial",
    "Verif.Support.Pattern.C28_counterexample",
    "Verif.Support.Pattern.C28_prefix_counterexample",
    "Verif.Support.Pattern.C28_any_prefix_partial"
   ],
   "note": "false of the code for a star after a literal and for star-only segments at the end of the path; proved for `**`, literals, and stars followed by a literal; prefix matching proved complete for all patterns"
  },
  {
   "property": "C29",
   "status": "proved",
   "theorems": [
    "Verif.Support.Semver.C29_valid_iff",
    "Verif.Support.Semver.C29_compare",
    "Verif.Support.Semver.C29_invalid",
    "Verif.Support.Semver.C29_total_preorder"
   ],
   "note": ""
  },
  {
   "property": "C30",
   "status": "proved",
   "theorems": [
    "Verif.Support.GoVersion.C30_valid_iff",
    "Verif.Support.GoVersion.C30_compare",
    "Verif.Support.GoVersion.C30_invalid",
    "Verif.Support.GoVersion.C30_total_preorder",
    "Verif.Support.GoVersion.C30_parse_go_version",
    "Verif.Support.GoVersion.C30_string_round_trip"
   ],
   "note": ""
  },
  {
   "property": "C31",
   "status": "proved",
   "theorems": [
    "Verif.Support.Coverage.C31_merge",
    "Verif.Support.Coverage.C31_blocks",
    "Verif.Support.Coverage.C31_order_irrelevant",
    "Verif.Support.Coverage.C31_arguments_change"
   ],
   "note": "the lines of the profiles must be distinct objects (they always are after Parse); counts are int64 and wrap"
  },
  {
   "property": "C32",
   "status": "proved",
   "theorems": [
    "Verif.Support.Coverage.C32_parse_format",
    "Verif.Support.Coverage.C32_round_trip",
    "Verif.Support.Coverage.C32_crlf_counts_lost"
   ],
   "note": "for every text; the last theorem records that counts of CRLF profiles are silently read as 0"
  },
  {
   "property": "C33",
   "status": "proved",
   "theorems": [
    "Verif.Instrument.Overlay.C33_compose",
    "Verif.Instrument.Overlay.C33_fails_iff",
    "Verif.Instrument.Overlay.C33_error_names_cycle",
    "Verif.Instrument.Overlay.C33_project",
    "Verif.Instrument.Overlay.C33_canonical_spelling_wins",
    "Verif.Instrument.Overlay.C33_canonical_mappings",
    "Verif.Instrument.Overlay.C33_aliases_counterexample"
   ],
   "note": "termination is the acceptance of the recursive definition; the last theorem shows that with several non-canonical spellings the result depends on map order"
  },
  {
   "property": "C44",
   "status": "partial",
   "theorems": [
    "Verif.Instrument.Overlay.C44_rewritten",
    "Verif.Instrument.Overlay.C44_untouched",
    "Verif.Instrument.Overlay.C44_user_replacement_partial",
    "Verif.Instrument.Overlay.C44_reads",
    "Verif.Instrument.Overlay.C44_builds",
    "Verif.Instrument.Overlay.C44_counterexample_chain",
    "Verif.Instrument.Overlay.C44_counterexample_swap",
    "Verif.Instrument.Overlay.C44_counterexample_spelling"
   ],
   "note": "false of the code for chained, exchanged and multiply spelled replacements; proved otherwise"
  },
  {
   "property": "C34",
   "status": "partial",
   "theorems": [
    "Verif.Instrument.Rules.C34_match",
    "Verif.Instrument.Rules.C34_first_rule",
    "Verif.Instrument.Rules.C34_comma_list",
    "Verif.Instrument.Rules.C34_usual_patterns_partial",
    "Verif.Instrument.Rules.C34_counterexample"
   ],
   "note": "selection proved for every rule list relative to what the pattern package makes of patterns; with the documented meaning of patterns proved for simple patterns, false for a star after a literal (C28)"
  },
  {
   "property": "C35",
   "status": "proved",
   "theorems": [
    "Verif.Instrument.Rules.C35_merge",
    "Verif.Instrument.Rules.C35_command_line_first",
    "Verif.Instrument.Rules.C35_fails_iff"
   ],
   "note": "JSON encoding/decoding is a parameter required to round-trip"
  },
  {
   "property": "C45",
   "status": "proved",
   "theorems": [
    "Verif.Instrument.Rules.C45_within",
    "Verif.Instrument.Rules.C45_agree",
    "Verif.Instrument.Rules.C45_main",
    "Verif.Instrument.Rules.C45_module_list"
   ],
   "note": "the module path must not be empty"
  },
  {
   "property": "C46",
   "status": "partial",
   "theorems": [
    "Verif.Instrument.Rules.C46_pattern",
    "Verif.Instrument.Rules.C46_packages",
    "Verif.Instrument.Rules.C46_main_partial",
    "Verif.Instrument.Rules.C46_counterexample"
   ],
   "note": "which packages are loaded is characterised for every rule list; that the first matching rule decides is false of the code"
  },
  {
   "property": "C36",
   "status": "proved",
   "theorems": [
    "Verif.Cmd.C36_recognised",
    "Verif.Cmd.C36_two_forms",
    "Verif.Cmd.C36_value_arrives"
   ],
   "note": "for release builds (isDevelopment false)"
  },
  {
   "property": "C48",
   "status": "partial",
   "theorems": [
    "Verif.Cmd.C48_subsequence",
    "Verif.Cmd.C48_untouched",
    "Verif.Cmd.C48_test_args",
    "Verif.Cmd.C48_program_args_partial",
    "Verif.Cmd.C48_flags_anywhere_partial",
    "Verif.Cmd.C48_go_command",
    "Verif.Cmd.C48_debug",
    "Verif.Cmd.C48_debug_run",
    "Verif.Cmd.C48_xgo_flags",
    "Verif.Cmd.C48_counterexample"
   ],
   "note": "false of the code after a go flag without value (`xgo run -race main.go -v`), for values starting with a dash (`-ldflags -v`) and for `test -o`; proved otherwise"
  },
  {
   "property": "C49",
   "status": "partial",
   "theorems": [
    "Verif.Cmd.C49_packages_partial",
    "Verif.Cmd.C49_counterexample"
   ],
   "note": "false of the code for value-less go flags missing from its list (`-short ./p`) and for flags after packages"
  },
  {
   "property": "C50",
   "status": "partial",
   "theorems": [
    "Verif.Runtime.CallValue.C50_watchers_invisible_partial",
    "Verif.Runtime.CallValue.C50_counterexample"
   ],
   "note": "false of the code when some interceptor has a post hook and the last registered has none (nil call); proved otherwise"
  },
  {
   "property": "C40",
   "status": "proved",
   "theorems": [
    "Verif.Instrument.FuncTrap.C40_names_kept",
    "Verif.Instrument.FuncTrap.C40_distinct",
    "Verif.Instrument.FuncTrap.C40_compiler"
   ],
   "note": "in place and in the compiler; names beginning with __xgo_ are assumed reserved"
  },
  {
   "property": "C47",
   "status": "partial",
   "theorems": [
    "Verif.Instrument.FuncTrap.C47_untouchable",
    "Verif.Instrument.FuncTrap.C47_under_test",
    "Verif.Instrument.FuncTrap.C47_named_packages",
    "Verif.Instrument.FuncTrap.C47_dependency_only",
    "Verif.Instrument.FuncTrap.C47_dependency_partial",
    "Verif.Instrument.FuncTrap.C47_counterexample",
    "Verif.Instrument.FuncTrap.C47_counterexample_panic",
    "Verif.Instrument.FuncTrap.C47_compiler_partial",
    "Verif.Instrument.FuncTrap.C47_counterexample_init",
    "Verif.Instrument.FuncTrap.C47_batches",
    "Verif.Instrument.FuncTrap.C47_interfaces",
    "Verif.Instrument.FuncTrap.C47_stdlib"
   ],
   "note": "false of the code for dependencies beyond 16 functions per file or 96 per package (a mocked function is left out), for parenthesised receivers (panic) and for methods called init; proved otherwise"
  },
  {
   "property": "C51",
   "status": "partial",
   "theorems": [
    "Verif.Instrument.FuncTrap.C51_more_functions_partial",
    "Verif.Instrument.FuncTrap.C51_variable_partial",
    "Verif.Instrument.FuncTrap.C51_counterexample"
   ],
   "note": "false of the code: names are hashed without separators ([Get, All] and [GetAll] share a key); proved for added functions and variables"
  },
  {
   "property": "C53",
   "status": "partial",
   "theorems": [
    "Verif.Instrument.FuncTrap.C53_distinct",
    "Verif.Instrument.FuncTrap.C53_declared",
    "Verif.Instrument.FuncTrap.C53_compiler_distinct",
    "Verif.Instrument.FuncTrap.C53_compiler_declared_partial",
    "Verif.Instrument.FuncTrap.C53_counterexample",
    "Verif.Instrument.FuncTrap.C53_counterexample_type",
    "Verif.Instrument.FuncTrap.C53_getter_pair",
    "Verif.Instrument.FuncTrap.C53_getters_partial",
    "Verif.Instrument.FuncTrap.C53_counterexample_getter"
   ],
   "note": "false of the code when a dependency has mocked functions and its mocked variables are not in its first file; proved otherwise"
  },
  {
   "property": "C54",
   "status": "partial",
   "theorems": [
    "Verif.Instrument.FuncTrap.C54_receiver_partial",
    "Verif.Instrument.FuncTrap.C54_counterexample"
   ],
   "note": "false of the code for methods handled by the compiler (the type's name is registered as receiver name); parameter names are covered by C40"
  },
  {
   "property": "C37",
   "status": "partial",
   "theorems": [
    "Verif.Runtime.Functab.C37_parse_partial",
    "Verif.Runtime.Functab.C37_counterexample_nested",
    "Verif.Runtime.Functab.C37_counterexample_dot",
    "Verif.Runtime.Functab.C37_counterexample_panic"
   ],
   "note": "proved for names as the Go runtime writes them whose type arguments contain no [ and no (; false of the code for type arguments that are generic instances, and for package paths whose last element has a dot (escaped by the runtime)"
  },
  {
   "property": "C38",
   "status": "partial",
   "theorems": [
    "Verif.Runtime.Functab.C38_registered",
    "Verif.Runtime.Functab.C38_succeeds",
    "Verif.Runtime.Functab.C38_by_package",
    "Verif.Runtime.Functab.C38_full_name",
    "Verif.Runtime.Functab.C38_generic_partial",
    "Verif.Runtime.Functab.C38_interface",
    "Verif.Runtime.Functab.C38_pointer_method",
    "Verif.Runtime.Functab.C38_inspect",
    "Verif.Runtime.Functab.C38_staging"
   ],
   "note": "all lookups; the lookup of generic instances is proved for the names C37 is proved for"
  },
  {
   "property": "C41",
   "status": "proved",
   "theorems": [
    "Verif.Runtime.Tls.C41_values",
    "Verif.Runtime.Tls.C41_isolated",
    "Verif.Runtime.Tls.C41_own",
    "Verif.Runtime.Tls.C41_inherit",
    "Verif.Runtime.Tls.C41_stable"
   ],
   "note": "every history of goroutine creation, writes and reads"
  },
  {
   "property": "C55",
   "status": "partial",
   "theorems": [
    "Verif.Runtime.Functab.C55_method_partial",
    "Verif.Runtime.Functab.C55_counterexample_late",
    "Verif.Runtime.Functab.C55_by_name_partial",
    "Verif.Runtime.Functab.C55_counterexample"
   ],
   "note": "false of the code for methods registered after the first PatchMethodByName and for `*v` with an unknown v (nil dereference); proved otherwise"
  },
  {
   "property": "C25",
   "status": "partial",
   "theorems": [
    "Verif.Instrument.PatchText.C25_clean",
    "Verif.Instrument.PatchText.C25_clear",
    "Verif.Instrument.PatchText.C25_untouched",
    "Verif.Instrument.PatchText.C25_counterexample_nested",
    "Verif.Instrument.PatchText.C25_counterexample_comment",
    "Verif.Instrument.PatchText.C25_counterexample_line"
   ],
   "note": "proved for any number of side-by-side edits whose text has no marker of its own; false of the code for an edit made on an edit, replaced text with a comment, and a line replaced by text that spans or is followed by more on the line"
  },
  {
   "property": "C26",
   "status": "partial",
   "theorems": [
    "Verif.Instrument.PatchText.C26_insert",
    "Verif.Instrument.PatchText.C26_ambiguous",
    "Verif.Instrument.PatchText.C26_again",
    "Verif.Instrument.PatchText.C26_counterexample_replace",
    "Verif.Instrument.PatchText.C26_replaceAfter",
    "Verif.Instrument.PatchText.C26_afterName",
    "Verif.Instrument.PatchText.C26_remove",
    "Verif.Instrument.PatchText.C26_counterexample_comment"
   ],
   "note": "first insertion, ambiguity and repetition proved; repetition of a replacement is false of the code (the replaced text comes back); a `package ` in a comment is taken for the package clause"
  },
  {
   "property": "C56",
   "status": "partial",
   "theorems": [
    "Verif.Instrument.PatchText.C56_edit_partial",
    "Verif.Instrument.PatchText.C56_error",
    "Verif.Instrument.PatchText.C56_idempotent",
    "Verif.Instrument.PatchText.C56_counterexample"
   ],
   "note": "false of the code when the callback changes nothing: the edits of the earlier version remain; otherwise proved for edits that C25 is proved for"
  },
  {
   "property": "C24",
   "status": "partial",
   "theorems": [
    "Verif.Instrument.PatchApply.C24_block_partial",
    "Verif.Instrument.PatchApply.C24_edits_partial",
    "Verif.Instrument.PatchApply.C24_blocks_partial",
    "Verif.Instrument.PatchApply.C24_counterexample_blocks",
    "Verif.Instrument.PatchApply.C24_counterexample_unnamed"
   ],
   "note": "false of the code for blocks without a name (they are added again each time) and for blocks that work on what an earlier block added; proved for one block whose edits are undoable in the sense of C25, and for any number of named blocks that do not depend on each other; the Go parser is a parameter"
  },
  {
   "property": "C57",
   "status": "partial",
   "theorems": [
    "Verif.Instrument.PatchApply.C57_places",
    "Verif.Instrument.PatchApply.C57_edits_partial",
    "Verif.Instrument.PatchApply.C57_space",
    "Verif.Instrument.PatchApply.C57_copy",
    "Verif.Instrument.PatchApply.C57_directive",
    "Verif.Instrument.PatchApply.C57_counterexample_order",
    "Verif.Instrument.PatchApply.C57_counterexample_after",
    "Verif.Instrument.PatchApply.C57_counterexample_stacked",
    "Verif.Instrument.PatchApply.C57_counterexample_mixed",
    "Verif.Instrument.PatchApply.C57_counterexample_nowhere",
    "Verif.Instrument.PatchApply.C57_counterexample_twice",
    "Verif.Instrument.PatchApply.C57_counterexample_receiver",
    "Verif.Instrument.PatchApply.C57_counterexample_copy",
    "Verif.Instrument.PatchApply.C57_counterexample_braces"
   ],
   "note": "places proved for all commands and well-formed syntax trees; edits proved for places in text order with one kind of edit each; false of the code for edits out of order, several insert_before at one place, insert_after not at the last place, and others (counterexamples); the Go parser is a parameter"
  },
  {
   "property": "C58",
   "status": "partial",
   "theorems": [
    "Verif.Instrument.PatchParse.C58_read",
    "Verif.Instrument.PatchParse.C58_print",
    "Verif.Instrument.PatchParse.C58_refused",
    "Verif.Instrument.PatchParse.C58_unclosed",
    "Verif.Instrument.PatchParse.C58_counterexample_comment",
    "Verif.Instrument.PatchParse.C58_counterexample_close",
    "Verif.Instrument.PatchParse.C58_counterexample_trail",
    "Verif.Instrument.PatchParse.C58_apply"
   ],
   "note": "proved for every file of well-formed blocks; an indented comment is an error, </patch> in a comment ends the block, and blanks at the end of a text are lost"
  },
  {
   "property": "C42",
   "status": "partial",
   "theorems": [
    "Verif.Support.LineEdit.C42_apply",
    "Verif.Support.LineEdit.C42_error",
    "Verif.Support.LineEdit.C42_order",
    "Verif.Support.LineEdit.C42_unpatch",
    "Verif.Support.LineEdit.C42_untouched",
    "Verif.Support.LineEdit.C42_match",
    "Verif.Support.LineEdit.C42_counterexample_zero",
    "Verif.Support.LineEdit.C42_counterexample_blank",
    "Verif.Support.LineEdit.C42_counterexample_unnamed",
    "Verif.Support.LineEdit.C42_counterexample_match",
    "Verif.Support.LineEdit.C42_one"
   ],
   "note": "applying is proved for every sorted order of edits of existing lines; undoing gives the lines back only up to empty lines (counterexample), and only for edits with a name"
  },
  {
   "property": "C52",
   "status": "partial",
   "theorems": [
    "Verif.Cmd.GitIgnore.C52_added",
    "Verif.Cmd.GitIgnore.C52_idempotent",
    "Verif.Cmd.GitIgnore.C52_ignored_partial",
    "Verif.Cmd.GitIgnore.C52_counterexample"
   ],
   "note": "false of the code for a .gitignore in which the pattern is part of another line"
  },
  {
   "property": "C39",
   "status": "partial",
   "theorems": [
    "Verif.Instrument.Resolve.C39_sound_partial",
    "Verif.Instrument.Resolve.C39_counterexample_select",
    "Verif.Instrument.Resolve.C39_counterexample_typeParam",
    "Verif.Instrument.Resolve.C39_rewritten_partial"
   ],
   "note": "proved for every body and every answer of the type resolver; false of the code for a name declared by a select clause and for a type parameter that has the name of a package variable"
  },
  {
   "property": "C59",
   "status": "partial",
   "theorems": [
    "Verif.Instrument.Resolve.C59_once",
    "Verif.Instrument.Resolve.C59_complete_partial",
    "Verif.Instrument.Resolve.C59_counterexample_shadow",
    "Verif.Instrument.Resolve.C59_counterexample_range",
    "Verif.Instrument.Resolve.C59_counterexample_position",
    "Verif.Instrument.Resolve.C59_rewritten_partial"
   ],
   "note": "at most once proved for every body; every use found if the name is declared nowhere in the function and the position is one xgo looks at; false otherwise"
  },
  {
   "property": "C60",
   "status": "partial",
   "theorems": [
    "Verif.Instrument.Resolve.C60_value",
    "Verif.Instrument.Resolve.C60_amp",
    "Verif.Instrument.Resolve.C60_amp_qualified",
    "Verif.Instrument.Resolve.C60_amp_field_ptr",
    "Verif.Instrument.Resolve.C60_amp_field_value",
    "Verif.Instrument.Resolve.C60_method",
    "Verif.Instrument.Resolve.C60_counterexample"
   ],
   "note": "proved for V, &V, &q.V, &V.f and V.m; false of the code for &V.f.g, &(V) and (&V).m"
  },
  {
   "property": "C61",
   "status": "partial",
   "theorems": [
    "Verif.Support.FileCopy.C61_copy",
    "Verif.Support.FileCopy.C61_replace",
    "Verif.Support.FileCopy.C61_again_partial",
    "Verif.Support.FileCopy.C61_counterexample_link",
    "Verif.Support.FileCopy.C61_concurrent_partial",
    "Verif.Support.FileCopy.C61_concurrent_files_partial",
    "Verif.Support.FileCopy.C61_concurrent_error",
    "Verif.Support.FileCopy.C61_concurrent_quiet",
    "Verif.Support.FileCopy.C61_concurrent_progress",
    "Verif.Support.FileCopy.C61_concurrent_terminates",
    "Verif.Support.FileCopy.C61_counterexample",
    "Verif.Support.FileCopy.C61_counterexample_never_tried"
   ],
   "note": "sequential copy proved for every tree, options and target; concurrent copy: no schedule deadlocks or runs for ever, and if no copy fails all wanted files are copied; false of the code: the concurrent copy may return no error though a copy failed, and a second copy fails on a symbolic link"
  },
  {
   "property": "C62",
   "status": "partial",
   "theorems": [
    "Verif.Instrument.Unified.C62_names",
    "Verif.Instrument.Unified.C62_alias",
    "Verif.Instrument.Unified.C62_all_run",
    "Verif.Instrument.Unified.C62_keys_partial",
    "Verif.Instrument.Unified.C62_report_partial",
    "Verif.Instrument.Unified.C62_select_partial",
    "Verif.Instrument.Unified.C62_dir_partial",
    "Verif.Instrument.Unified.C62_counterexample_clash",
    "Verif.Instrument.Unified.C62_counterexample_select",
    "Verif.Instrument.Unified.C62_counterexample_bench",
    "Verif.Instrument.Unified.C62_counterexample_parallel"
   ],
   "note": "every test is run once, proved without side condition; names, reports and directories proved if no test has a name that another one gets (C62_names: exactly then); false of the code otherwise, for -run with repeated names, for benchmarks and for parallel tests"
  },
  {
   "property": "C63",
   "status": "proved",
   "theorems": [
    "Verif.Support.Session.C63_once",
    "Verif.Support.Session.C63_order",
    "Verif.Support.Session.C63_stream",
    "Verif.Support.Session.C63_empty",
    "Verif.Support.Session.C63_progress",
    "Verif.Support.Session.C63_bound",
    "Verif.Support.Session.C63_two_polls",
    "Verif.Support.Session.C63_ids",
    "Verif.Support.Session.C63_get"
   ],
   "note": "every schedule of any number of senders, polls and callers of the manager; C63_two_polls shows why the order needs one poll at a time"
  },
  {
   "property": "C64",
   "status": "partial",
   "theorems": [
    "Verif.Cmd.Explorer.C64_shown",
    "Verif.Cmd.Explorer.C64_listed",
    "Verif.Cmd.Explorer.C64_which",
    "Verif.Cmd.Explorer.C64_counterexample_listed",
    "Verif.Cmd.Explorer.C64_select_one",
    "Verif.Cmd.Explorer.C64_select_none",
    "Verif.Cmd.Explorer.C64_select_many",
    "Verif.Cmd.Explorer.C64_select_wanted",
    "Verif.Cmd.Explorer.C64_select_sub",
    "Verif.Cmd.Explorer.C64_select_sub_wanted",
    "Verif.Cmd.Explorer.C64_counterexample_prefix",
    "Verif.Cmd.Explorer.C64_counterexample_sub",
    "Verif.Cmd.Explorer.C64_counterexample_escape",
    "Verif.Cmd.Explorer.C64_dir_partial",
    "Verif.Cmd.Explorer.C64_file_partial",
    "Verif.Cmd.Explorer.C64_case",
    "Verif.Cmd.Explorer.C64_subtest_partial",
    "Verif.Cmd.Explorer.C64_counterexample_file",
    "Verif.Cmd.Explorer.C64_counterexample_excluded"
   ],
   "note": "what is shown is characterised for every tree; directories and single tests run exactly theirs; false of the code: files with several tests and subtests also run tests with similar names, excluded files are run with their directory, names with regexp characters are not found, TestMain and methods are shown"
  },
  {
   "property": "C65",
   "status": "partial",
   "theorems": [
    "Verif.Cmd.Status.C65_final",
    "Verif.Cmd.Status.C65_end",
    "Verif.Cmd.Status.C65_sound",
    "Verif.Cmd.Status.C65_output",
    "Verif.Cmd.Status.C65_path",
    "Verif.Cmd.Status.C65_path_pkg",
    "Verif.Cmd.Status.C65_chain",
    "Verif.Cmd.Status.C65_found",
    "Verif.Cmd.Status.C65_single",
    "Verif.Cmd.Status.C65_counterexample_file",
    "Verif.Cmd.Status.C65_counterexample_build",
    "Verif.Cmd.Status.C65_counterexample_panic",
    "Verif.Cmd.Status.C65_counterexample_method",
    "Verif.Cmd.Status.C65_counterexample_unparsed",
    "Verif.Cmd.Status.C65_counterexample_crash",
    "Verif.Cmd.Status.C65_counterexample_json"
   ],
   "note": "reported results, output, subtests and the end proved for every output whose lines are events; false of the code: tests that were not run (build failure, panic) and files with failed tests are shown as successful, a method with the name of a test takes its result, an unparsable file hides all results of its package, a line that is no event crashes the explorer"
  },
  {
   "property": "C66",
   "status": "partial",
   "theorems": [
    "Verif.Cmd.Setup.C66_setup_partial",
    "Verif.Cmd.Setup.C66_resume_partial",
    "Verif.Cmd.Setup.C66_recover",
    "Verif.Cmd.Setup.C66_delete",
    "Verif.Cmd.Setup.C66_counterexample_reset",
    "Verif.Cmd.Setup.C66_counterexample_resetUpgrade",
    "Verif.Cmd.Setup.C66_counterexample_downgrade",
    "Verif.Cmd.Setup.C66_counterexample_buildCompiler",
    "Verif.Cmd.Setup.C66_counterexample_skip",
    "Verif.Cmd.Setup.C66_counterexample_filePatches",
    "Verif.Cmd.Setup.C66_counterexample_concurrent"
   ],
   "note": "one process at a time: a run that sets up itself uses a good GOROOT whatever was interrupted before (unless the directory was being removed), and so does every run without setup options as long as versions do not return; recovery is always possible; false of the code: interrupted --reset-instrument, interrupted upgrade followed by the old version, interrupted --build-compiler, --skip-rebuild-compiler-and-go, a changed --use-file-patches, concurrent processes"
  },
  {
   "property": "C67",
   "status": "partial",
   "theorems": [
    "Verif.Instrument.Target.C67_sound_partial",
    "Verif.Instrument.Target.C67_direct_partial",
    "Verif.Instrument.Target.C67_plain_names",
    "Verif.Instrument.Target.C67_trap_all_partial",
    "Verif.Instrument.Target.Wrong.C67_param_not_recorded",
    "Verif.Instrument.Target.Wrong.C67_shadowed_wrong",
    "Verif.Instrument.Target.Wrong.C67_if_init_wrong",
    "Verif.Instrument.Target.Wrong.C67_late_wrong",
    "Verif.Instrument.Target.Wrong.C67_other_file_wrong",
    "Verif.Instrument.Target.Wrong.C67_defined_type_wrong",
    "Verif.Instrument.Target.Wrong.C67_first_field_not_recorded",
    "Verif.Instrument.Target.Wrong.C67_error_var_not_recorded",
    "Verif.Instrument.Target.Wrong.C67_mark_all_not_seen"
   ],
   "note": "sound for every program and every function in which variables declared by := neither shadow nor are shadowed and no local name is a package-level one; complete for targets named in a plain way (F, pkg.F, T.M, (*T).M, pkg.T.M, v.M with v declared by := or at package level, &V, &pkg.V) with types the code understands; false of the code: methods of parameters, shadowed names, variables of if statements that are over, definitions resolved where they are used, types resolved with the imports of another file, type A B, fields X, Y T, variables of type error, trap.MarkInterceptAll(); type parameters and dot imports not modelled"
  },
  {
   "property": "C68",
   "status": "partial",
   "theorems": [
    "Verif.Instrument.Load.C68_ends",
    "Verif.Instrument.Load.C68_no_deadlock",
    "Verif.Instrument.Load.C68_no_crash",
    "Verif.Instrument.Load.C68_files_partial",
    "Verif.Instrument.Load.C68_packages_partial",
    "Verif.Instrument.Load.C68_which_files",
    "Verif.Instrument.Load.C68_at_rest",
    "Verif.Instrument.Load.C68_lines",
    "Verif.Instrument.Load.Wrong.C68_unreadable_kept"
   ],
   "note": "end, no deadlock, no leak, order and content proved for every schedule; exact result if all files can be read; false of the code: the reader reports a file as done before it sets its error, so a file that cannot be read (or is too large) may be returned without error and syntax tree"
  },
  {
   "property": "C69",
   "status": "partial",
   "theorems": [
    "Verif.Cmd.BlankImport.C69_import_partial",
    "Verif.Cmd.BlankImport.C69_only_imports",
    "Verif.Cmd.BlankImport.C69_linked_partial",
    "Verif.Cmd.BlankImport.C69_any_order",
    "Verif.Cmd.BlankImport.Wrong.C69_comment_after",
    "Verif.Cmd.BlankImport.Wrong.C69_comment_before",
    "Verif.Cmd.BlankImport.Wrong.C69_mixed_line_ends",
    "Verif.Cmd.BlankImport.Wrong.C69_two_semicolons",
    "Verif.Cmd.BlankImport.Wrong.C69_tab",
    "Verif.Cmd.BlankImport.Wrong.C69_mentioned",
    "Verif.Cmd.BlankImport.Wrong.C69_overlay_of_user"
   ],
   "note": "proved for files whose package clause stands alone on its line (LF without later CR, CRLF, or end of file) with no earlier 'package '; false of the code, with counterexamples: a comment after the clause, a comment before it with the word package, mixed line ends, 'package a; ', a tab, text that mentions the import path, a user overlay that go list does not see"
  },
  {
   "property": "C70",
   "status": "partial",
   "theorems": [
    "Verif.Cmd.Vendor.C70_parse",
    "Verif.Cmd.Vendor.C70_space",
    "Verif.Cmd.Vendor.C70_batches",
    "Verif.Cmd.Vendor.C70_taken_from_vendor_partial",
    "Verif.Cmd.Vendor.C70_others_untouched",
    "Verif.Cmd.Vendor.C70_language_partial",
    "Verif.Cmd.Vendor.C70_mod_flag",
    "Verif.Cmd.Vendor.Wrong.C70_fork",
    "Verif.Cmd.Vendor.Wrong.C70_absolute",
    "Verif.Cmd.Vendor.Wrong.C70_language",
    "Verif.Cmd.Vendor.Wrong.C70_subdirectory",
    "Verif.Cmd.Vendor.Wrong.C70_no_packages"
   ],
   "note": "proved if no vendored module is replaced by another module or an absolute directory and for modules with a recorded language version; false of the code, with counterexamples: a module replaced by a fork (its own path is not replaced, a directory that does not exist is), an absolute replacement, a module without language version (compiled with that of the toolchain, not 1.16), xgo run below the root of the project, a vendor directory without packages"
  },
  {
   "property": "C71",
   "status": "partial",
   "theorems": [
    "Verif.Cmd.RuntimeCopy.C71_history_partial",
    "Verif.Cmd.RuntimeCopy.C71_first",
    "Verif.Cmd.RuntimeCopy.C71_forced",
    "Verif.Cmd.RuntimeCopy.C71_dir",
    "Verif.Cmd.RuntimeCopy.C71_own_partial",
    "Verif.Cmd.RuntimeCopy.C71_crash_partial",
    "Verif.Cmd.RuntimeCopy.C71_flags_counterexample",
    "Verif.Cmd.RuntimeCopy.C71_downgrade_counterexample",
    "Verif.Cmd.RuntimeCopy.C71_crash_counterexample",
    "Verif.Cmd.RuntimeCopy.C71_dir_counterexample"
   ],
   "note": "proved for all histories, with the exact origin of every file; false of the code, with counterexamples: the flags of an earlier --strace run stay in a run without flags, an older xgo after a newer one mixes its trace.go with the other's files, a crash in the extraction after core/version.go leaves an incomplete copy that is kept, a trace directory with the text of a declaration in its name. Not covered: two runs at once (there is no lock), files left half written by the linking other than trace.go, releases whose runtime changed without a new number (a hypothesis of C71_own_partial)"
  },
  {
   "property": "C72",
   "status": "partial",
   "theorems": [
    "Verif.Instrument.CoverNotes.C72_covered",
    "Verif.Instrument.CoverNotes.C72_plain",
    "Verif.Instrument.CoverNotes.C72_two_dashes_counterexample"
   ],
   "note": "proved for a flag that begins with -cover; false of the code for --cover, --coverprofile (counterexample) and GOFLAGS=-cover, for which no notes are written and the coverage is that of the edited text under the name of the temporary file. Characters instead of bytes, so files that are not valid UTF-8 are outside; of JSON what json.Marshal writes; the placement of the counters is a parameter"
  },
  {
   "property": "C73",
   "status": "partial",
   "theorems": [
    "Verif.Instrument.VarType.C73_imports",
    "Verif.Instrument.VarType.C73_declared",
    "Verif.Instrument.VarType.C73_type_partial",
    "Verif.Instrument.VarType.C73_char_wrong",
    "Verif.Instrument.VarType.C73_float_wrong",
    "Verif.Instrument.VarType.C73_const_wrong",
    "Verif.Instrument.VarType.C73_pair_wrong",
    "Verif.Instrument.VarType.C73_files_wrong",
    "Verif.Instrument.VarType.C73_local_wrong",
    "Verif.Instrument.VarType.C73_xtest_wrong",
    "Verif.Instrument.VarType.C73_internal_import"
   ],
   "note": "the imports and copied types are proved in general; the types that follow from values for programs that avoid what the code gets wrong, each with a counterexample: character literals (byte instead of rune), constants of different kinds in one operation, a named untyped constant before a typed operand, several variables set by one call, a value resolved in the function or file of its first use where a local name or an import has another meaning, types of a package in its external test package, internal packages. Left out of the model: fields and methods of values, indices, generic types, dot imports; a function type is identified by the place where it is written"
  },
  {
   "property": "C74",
   "status": "partial",
   "theorems": [
    "Verif.Cmd.GoMod.C74_nearest_partial",
    "Verif.Cmd.GoMod.C74_root_module",
    "Verif.Cmd.GoMod.C74_module_partial",
    "Verif.Cmd.GoMod.C74_module_tab",
    "Verif.Cmd.GoMod.C74_module_quoted",
    "Verif.Cmd.GoMod.C74_module_block",
    "Verif.Cmd.GoMod.C74_package_partial",
    "Verif.Cmd.GoMod.C74_project_root_partial",
    "Verif.Cmd.GoMod.C74_project_root_none",
    "Verif.Cmd.GoMod.C74_project_root_absolute",
    "Verif.Cmd.GoMod.C74_project_root_relative",
    "Verif.Cmd.GoMod.C74_project_root_slash",
    "Verif.Cmd.GoMod.C74_find_dir",
    "Verif.Cmd.GoMod.C74_scanned_partial"
   ],
   "note": "Proved: the nearest go.mod is found, with the path below it, from every directory, relative or absolute, unless a go.mod cannot be examined or / itself is the module; the module path of every go.mod whose statement is written as the go command writes it; the import path; the project root for every path with enough proper names at its end, so for every clean absolute path. False in general, with theorems: a module in / is never found by ResolveMainModule; `module` followed by a tab, a quoted path and a block are misread; run in a subdirectory without --project-dir (or with a trailing slash) the project root is not the root of the module; the test explorer walks root/ with the path of the directory backwards, which is the directory only when the path reads the same both ways."
  },
  {
   "property": "C75",
   "status": "partial",
   "theorems": [
    "Verif.Runtime.TraceJson.C75_json",
    "Verif.Runtime.TraceJson.C75_values_partial",
    "Verif.Runtime.TraceJson.C75_lost",
    "Verif.Runtime.TraceJson.C75_which",
    "Verif.Runtime.TraceJson.C75_error_text",
    "Verif.Runtime.TraceJson.C75_limit_bytes"
   ],
   "note": "Proved: the record is always JSON; it has every value under its name in order, whatever errors, panics and long values there are, if the texts that are quoted with %q are ones that Go and JSON quote alike. False otherwise: one error text with a control character, stray byte or unprintable character beyond the basic plane, or one long value cut within a character, and all values of the call are replaced by one error (C75_lost, for all such records). The method Error of a returned error is called without recover: a traced call that returns a nil pointer as error panics (C75_error_text). Two fields of one name (the reported names are distinct by C40) are not excluded."
  },
  {
   "property": "C76",
   "status": "partial",
   "theorems": [
    "Verif.Runtime.TraceGo.C76_export_is_a_picture_partial",
    "Verif.Runtime.TraceGo.C76_every_call_is_shown_partial",
    "Verif.Runtime.TraceGo.C76_only_calls_of_the_trace_partial",
    "Verif.Runtime.TraceGo.C76_each_call_once_partial",
    "Verif.Runtime.TraceGo.C76_export_ends_partial",
    "Verif.Runtime.TraceGo.C76_times_partial",
    "Verif.Runtime.TraceGo.C76_race_safe_partial",
    "Verif.Runtime.TraceGo.C76_counterexample_dropped",
    "Verif.Runtime.TraceGo.C76_counterexample_never_ends"
   ],
   "note": "Proved for every history and schedule: a finished export is a picture of the acts of every goroutine reached through go statements executed during traced calls, each snapshot at a moment during the export; completeness, uniqueness, one clock, no entry ending before it begins; the export ends if goroutines stop being started. False as stated for two reasons, each with a machine-checked counterexample: a goroutine started by a traced goroutine outside of every traced call (go func(){ go f() }()) is dropped (AppendGoChild returns when Top is nil), and while goroutines start goroutines as fast as the export visits them the export does not end. Assumed: calls return in LIFO order per goroutine, goroutine ids are fresh, and (for the times theorem) a monotone clock. The contents of entries (arguments, results) are C75's."
  },
  {
   "property": "C77",
   "status": "partial",
   "theorems": [
    "Verif.Cmd.TraceView.C77_page",
    "Verif.Cmd.TraceView.C77_cost",
    "Verif.Cmd.TraceView.C77_data",
    "Verif.Cmd.TraceView.C77_name",
    "Verif.Cmd.TraceView.C77_read",
    "Verif.Cmd.TraceView.C77_first",
    "Verif.Cmd.TraceView.C77_serve",
    "Verif.Cmd.TraceView.C77_old",
    "Verif.Cmd.TraceView.C77_old_null",
    "Verif.Cmd.TraceView.C77_cut_partial",
    "Verif.Cmd.TraceView.C77_null_partial",
    "Verif.Cmd.TraceView.C77_title_raw_partial"
   ],
   "note": "Proved for all forests without null entries whose entries are distinct objects (as decoding yields): the page as a browser reads it is the numbered tree, clicks show the right data, data lines are JSON of the entry and inert, names survive HTML quoting, costs are exact. False as stated: a file cut within its second or a later stack is never answered - the decoder's syntax error is sticky and the loop only ends at io.EOF, adding an error stack each round (C77_cut_partial, for every such file); a null among the calls stops the page before its list, and its error is dropped (C77_null_partial); the file name goes unescaped into the title (C77_title_raw_partial). An entry given twice by a program that calls RenderStacks is shown with one of its numbers (example). Costs are computed exactly in the model, the code divides in float64; encoding/json's decoding into structs is a parameter."
  },
  {
   "property": "C78",
   "status": "partial",
   "theorems": [
    "Verif.Runtime.Hooks.C78_registered",
    "Verif.Runtime.Hooks.C78_init_pending",
    "Verif.Runtime.Hooks.C78_init_partial",
    "Verif.Runtime.Hooks.C78_init_late_lost",
    "Verif.Runtime.Hooks.C78_trap",
    "Verif.Runtime.Hooks.C78_trap_twice",
    "Verif.Runtime.Hooks.C78_callbacks",
    "Verif.Runtime.Hooks.C78_go_starts_empty",
    "Verif.Runtime.Hooks.C78_state_partial",
    "Verif.Runtime.Hooks.C78_state_left_behind"
   ],
   "note": "Registration, traps, callbacks and the start of goroutines made by go are proved for all histories. False as stated: OnInitFinished after the end of initialisation, or from such a callback, drops its function silently (C78_init_late_lost); goroutines that neither start in newproc nor end in goexit1, which the patch does not hook (the coroutines of iter.Pull in Go 1.23 and later), find the state that the previous such goroutine left in the structure (C78_state_left_behind); C78_state_partial is the refinement to one state per goroutine for all histories in which such goroutines get structures left through goexit1. That newcoro and coroexit are such paths is knowledge of Go's runtime, whose source is not in /repo; memory ordering and the race detector's annotations are not modelled."
  },
  {
   "property": "C79",
   "status": "partial",
   "theorems": [
    "Verif.Cmd.Shadow.C79_instruments_partial",
    "Verif.Cmd.Shadow.C79_passes_partial",
    "Verif.Cmd.Shadow.C79_exit",
    "Verif.Cmd.Shadow.C79_other_spelling",
    "Verif.Cmd.Shadow.C79_alias_loops",
    "Verif.Cmd.Shadow.C79_no_stdin"
   ],
   "note": "Proved for all PATHs of absolute, normally written directories on which the shadow is reachable under one name only. False as stated: if the shadow's directory is written otherwise (a trailing slash), every go command fails (C79_other_spelling); if PATH reaches the shadow under two names, the two start each other without end (C79_alias_loops, for every such PATH); standard input is never passed on (C79_no_stdin). The command `xgo shadow` that installed it is refused at this commit (cmd/xgo/main.go:100-103); what it installed, and `getNakedGo` in xgo, are the code modelled. Windows' variant, signals and commands other than the three are not distinguished further."
  },
  {
   "property": "C80",
   "status": "partial",
   "theorems": [
    "Verif.Cmd.GoXgo.C80_env",
    "Verif.Cmd.GoXgo.C80_goroot",
    "Verif.Cmd.GoXgo.C80_once",
    "Verif.Cmd.GoXgo.C80_plain",
    "Verif.Cmd.GoXgo.C80_xgo",
    "Verif.Cmd.GoXgo.C80_exec_partial",
    "Verif.Cmd.GoXgo.C80_native",
    "Verif.Cmd.GoXgo.C80_exit",
    "Verif.Cmd.GoXgo.C80_exec_inside_lost",
    "Verif.Cmd.GoXgo.C80_no_stdin",
    "Verif.Cmd.GoXgo.C80_empty_path"
   ],
   "note": "Proved for all environments, arguments and options that instrument. False as stated: inside whatever xgo runs (a test that calls `xgo exec go test`) GO_BYPASS_XGO is inherited and nothing is instrumented (C80_exec_inside_lost); standard input is never passed on (C80_no_stdin); an empty PATH gets the current directory as an entry (C80_empty_path). What xgo makes of its arguments is C48's subject and a parameter here, as is whether xgo is found on PATH."
  },
  {
   "property": "C81",
   "status": "partial",
   "theorems": [
    "Verif.Support.ServePort.C81_port",
    "Verif.Support.ServePort.C81_gives_up",
    "Verif.Support.ServePort.C81_ends",
    "Verif.Support.ServePort.C81_announced_partial",
    "Verif.Support.ServePort.C81_announces",
    "Verif.Support.ServePort.C81_host",
    "Verif.Support.ServePort.C81_announced_stale",
    "Verif.Support.ServePort.C81_announced_untried",
    "Verif.Support.ServePort.C81_page_early",
    "Verif.Support.ServePort.C81_v6_probe"
   ],
   "note": "The search is proved for every behaviour of other programs and every schedule; that it ends rests on there being no port above 65535. False as stated: the announcement is right only where listening on a taken port fails before the half second is over and the watcher sees it in time (C81_announced_partial, C81_announces); otherwise the address of the other program is announced (C81_announced_stale), or, as the closure sees the loop's variable, that of a port not yet tried (C81_announced_untried); in the first half second the page has links to port 0 (C81_page_early); for an IPv6 host the probe asks at another address than is listened on (C81_v6_probe), so that only listening itself tells. An address to bind that this machine does not have is silently replaced by localhost (part of C81_host). --debug's dlv reports a taken port as an exit code, which ends the search (outcome `other`)."
  },
  {
   "property": "C82",
   "status": "partial",
   "theorems": [
    "Verif.Cmd.GorootDir.C82_name",
    "Verif.Cmd.GorootDir.C82_length",
    "Verif.Cmd.GorootDir.C82_fresh",
    "Verif.Cmd.GorootDir.C82_again",
    "Verif.Cmd.GorootDir.C82_apart_partial",
    "Verif.Cmd.GorootDir.C82_versions",
    "Verif.Cmd.GorootDir.C82_caches_partial",
    "Verif.Cmd.GorootDir.C82_delete",
    "Verif.Cmd.GorootDir.C82_delete_other",
    "Verif.Cmd.GorootDir.C82_goroot",
    "Verif.Cmd.GorootDir.C82_shared",
    "Verif.Cmd.GorootDir.C82_mistaken"
   ],
   "note": "False as stated: the name of the copy has eight hexadecimal digits of the checksum and at most eight shortened elements of the path, so that for every checksum function there are two installations of one version that share a copy (C82_shared, by the pigeonhole principle); nothing records whose copy it is. Proved otherwise: copies and caches are disjoint unless all three parts of the name agree (C82_apart_partial, C82_caches_partial). A directory with a file xgo-revision.txt is taken for a copy whoever made it (C82_mistaken): a GOROOT in it is changed in place and --delete removes all beside it. Reading: Unix, paths clean and absolute as filepath.Abs makes them. What setup does in the directories is C66."
  },
  {
   "property": "C83",
   "status": "partial",
   "theorems": [
    "Verif.Cmd.TestConfig.C83_accepts",
    "Verif.Cmd.TestConfig.C83_unknown_keys",
    "Verif.Cmd.TestConfig.C83_settings",
    "Verif.Cmd.TestConfig.C83_go_setting",
    "Verif.Cmd.TestConfig.C83_coverage_setting",
    "Verif.Cmd.TestConfig.C83_env_partial",
    "Verif.Cmd.TestConfig.C83_env_values",
    "Verif.Cmd.TestConfig.C83_env_large",
    "Verif.Cmd.TestConfig.C83_env_nested",
    "Verif.Cmd.TestConfig.C83_env_ambiguous",
    "Verif.Cmd.TestConfig.C83_go_range",
    "Verif.Cmd.TestConfig.C83_merge",
    "Verif.Cmd.TestConfig.C83_mock_rules",
    "Verif.Cmd.TestConfig.C83_supports",
    "Verif.Cmd.TestConfig.C83_coverage",
    "Verif.Cmd.TestConfig.C83_file",
    "Verif.Cmd.TestConfig.C83_command",
    "Verif.Cmd.TestConfig.C83_env_order",
    "Verif.Cmd.TestConfig.C83_text_false_is_true",
    "Verif.Cmd.TestConfig.C83_bad_bound",
    "Verif.Cmd.TestConfig.C83_coverage_true"
   ],
   "note": "The full claim is false of the code, and shown to be: whole numbers from a million on arrive in the environment in scientific notation (proved to be exactly those), the text \"false\" switches bypass_go_flags on, a bound that is not a version is ignored, --coverage cannot switch on what the file switches off, and with a name that contains an equals sign the map order decides. An xgo that cannot print its version is taken for a new one, because support/cmd.Output loses errors. Printing of fractions and the text of mock rules are parameters."
  },
  {
   "property": "C84",
   "status": "partial",
   "theorems": [
    "Verif.Cmd.RunOutput.C84_lines",
    "Verif.Cmd.RunOutput.C84_line",
    "Verif.Cmd.RunOutput.C84_rests",
    "Verif.Cmd.RunOutput.C84_ends",
    "Verif.Cmd.RunOutput.C84_last",
    "Verif.Cmd.RunOutput.C84_hang",
    "Verif.Cmd.RunOutput.C84_hang_witness",
    "Verif.Cmd.RunOutput.C84_rejected",
    "Verif.Cmd.RunOutput.C84_open",
    "Verif.Cmd.RunOutput.C84_err_after_end",
    "Verif.Cmd.RunOutput.C84_err_long",
    "Verif.Cmd.RunOutput.C84_end_first",
    "Verif.Cmd.RunOutput.C84_session",
    "Verif.Cmd.RunOutput.C84_polled"
   ],
   "note": "The full claim is false of the code, and shown to be: a line of 64 KiB or more makes the run hang for ever without an end (proved for every schedule), as does a line that is no event when enough follows it; the unterminated last line of the error output is never shown, its lines may come after the end, and a long one fails a run that succeeded; under /run and /debug the end may come before the output and the unterminated last line is never shown. C84_ends proves the claim for lines below 64 KiB. Events about statuses are C65's."
  },
  {
   "property": "C85",
   "status": "partial",
   "theorems": [
    "Verif.Support.CmdLine.C85_pasted_partial",
    "Verif.Support.CmdLine.C85_quote_iff",
    "Verif.Support.CmdLine.C85_not_quoted",
    "Verif.Support.CmdLine.C85_env_newline",
    "Verif.Support.CmdLine.C85_program_blank",
    "Verif.Support.CmdLine.C85_env",
    "Verif.Support.CmdLine.C85_run",
    "Verif.Support.CmdLine.C85_output",
    "Verif.Support.CmdLine.C85_output_error",
    "Verif.Support.CmdLine.C85_run_ignore",
    "Verif.Support.CmdLine.C85_crlf"
   ],
   "note": "The full claim is false of the code, and shown to be: C85_quote_iff is the exact set of arguments shown right (quotes, backquotes,"
  },
  {
   "property": "C86",
   "status": "partial",
   "theorems": [
    "Verif.Cmd.CovMerge.C86_merge",
    "Verif.Cmd.CovMerge.C86_missing",
    "Verif.Cmd.CovMerge.C86_covered",
    "Verif.Cmd.CovMerge.C86_step_by_step",
    "Verif.Cmd.CovMerge.C86_compact",
    "Verif.Cmd.CovMerge.C86_compact_again",
    "Verif.Cmd.CovMerge.C86_exclude_other",
    "Verif.Cmd.CovMerge.C86_mode_line",
    "Verif.Cmd.CovMerge.C86_unknown",
    "Verif.Cmd.CovMerge.C86_serve",
    "Verif.Cmd.CovMerge.C86_serve_panic"
   ],
   "note": "The claims on sums, blocks, order, failure and compact are proved in full. False of the code, and shown to be: a prefix excludes other packages that begin with the same letters; a profile appended to another has its mode line become a block `mode: 0`; an unknown command exits with 0; a flag of serve or load without value at the end is an index out of range. Of serve and load only the command line is modelled."
  },
  {
   "property": "C87",
   "status": "partial",
   "theorems": [
    "Verif.Cmd.ToolExec.C87_exec_tool",
    "Verif.Cmd.ToolExec.C87_exec_compile",
    "Verif.Cmd.ToolExec.C87_exec_lost",
    "Verif.Cmd.ToolExec.C87_exit",
    "Verif.Cmd.ToolExec.C87_insert_other",
    "Verif.Cmd.ToolExec.C87_insert_partial",
    "Verif.Cmd.ToolExec.C87_insert_fails",
    "Verif.Cmd.ToolExec.C87_shallow",
    "Verif.Cmd.ToolExec.C87_func",
    "Verif.Cmd.ToolExec.C87_trapped",
    "Verif.Cmd.ToolExec.C87_lines",
    "Verif.Cmd.ToolExec.C87_parallel_partial",
    "Verif.Cmd.ToolExec.C87_race",
    "Verif.Cmd.ToolExec.C87_help"
   ],
   "note": "Full for exec_tool, for the text of the files with traps and for what is left as it is. The claim for packages is false of the code, and shown to be: a package path with three slashes or fewer is never instrumented, even if named (C87_shallow), so C87_insert_partial needs a deeper one; --func and the flags as the help spells them are refused; and the claim for compilations at the same time fails when one package's directory is another's or above it, since the whole directory of copies is removed (C87_race), so C87_parallel_partial needs directories apart. Without `--` exec_tool runs the tool's first argument."
  },
  {
   "property": "C88",
   "status": "partial",
   "theorems": [
    "Verif.Instrument.SourceLines.C88_lines_partial",
    "Verif.Instrument.SourceLines.C88_types",
    "Verif.Instrument.SourceLines.C88_ampersand"
   ],
   "note": "C88_lines_partial: whenever the edits can be applied, the user's code up to the last declaration is in the new text in order, each character exactly `2 * line breaks in types of variables declared above` lines further down, and on its own line when those types are on one line; needs that `&` and its operand are on one line. C88_types and C88_ampersand are files where the property fails."
  },
  {
   "property": "C89",
   "status": "proved",
   "theorems": [
    "Verif.Instrument.RegRead.C89_registered",
    "Verif.Instrument.RegRead.C89_trapped",
    "Verif.Instrument.RegRead.C89_variable",
    "Verif.Instrument.RegRead.C89_init"
   ],
   "note": "C89_registered: the events of the code are the hook and one registration for each declaration, with the entries of the specification; C89_trapped and C89_variable: the trap of function j and the getters of variable j are given the variable with which function j or variable j is registered; C89_init: the hook. Needs that names are Go names and methods are written T.M or (*T).M."
  },
  {
   "property": "C90",
   "status": "partial",
   "theorems": [
    "Verif.Runtime.Defer.C90_behaviour",
    "Verif.Runtime.Defer.C90_transparent",
    "Verif.Runtime.Defer.C90_replaced",
    "Verif.Runtime.Defer.C90_log",
    "Verif.Runtime.Defer.C90_panicked_partial",
    "Verif.Runtime.Defer.C90_panicked_counterexample",
    "Verif.Runtime.Defer.C90_language"
   ],
   "note": "C90_behaviour, C90_transparent, C90_replaced, C90_log: complete for hooks that do not panic; a replacement may panic if the function has no other hooks. C90_panicked_partial: the mark is right for calls that are not made while a panic is on; C90_panicked_counterexample: a cleanup function called while a panic is on is marked although it returns."
  },
  {
   "property": "C91",
   "status": "partial",
   "theorems": [
    "Verif.Instrument.InitOrder.C91_order_partial",
    "Verif.Instrument.InitOrder.C91_order_counterexample",
    "Verif.Instrument.InitOrder.C91_no_loop",
    "Verif.Instrument.InitOrder.C91_inits",
    "Verif.Instrument.InitOrder.C91_links",
    "Verif.Instrument.InitOrder.C91_links_only"
   ],
   "note": "C91_no_loop, C91_inits, C91_links are complete. C91_order_partial: the order is kept under a condition on where things are declared; C91_order_counterexample: without it, it can change."
  },
  {
   "property": "C92",
   "status": "partial",
   "theorems": [
    "Verif.Cmd.CovView.C92_parse",
    "Verif.Cmd.CovView.C92_ids",
    "Verif.Cmd.CovView.C92_first",
    "Verif.Cmd.CovView.C92_stable",
    "Verif.Cmd.CovView.C92_line",
    "Verif.Cmd.CovView.C92_covered",
    "Verif.Cmd.CovView.C92_changes",
    "Verif.Cmd.CovView.C92_old_text",
    "Verif.Cmd.CovView.C92_git_partial",
    "Verif.Cmd.CovView.C92_changed_partial",
    "Verif.Cmd.CovView.C92_summary",
    "Verif.Cmd.CovView.C92_count_unique",
    "Verif.Cmd.CovView.C92_absent",
    "Verif.Cmd.CovView.C92_else_counterexample",
    "Verif.Cmd.CovView.C92_total_counterexample",
    "Verif.Cmd.CovView.C92_renamed_counterexample",
    "Verif.Cmd.CovView.C92_subdir_counterexample",
    "Verif.Cmd.CovView.C92_prefix_counterexample",
    "Verif.Cmd.CovView.C92_convert",
    "Verif.Cmd.CovView.C92_overflow"
   ],
   "note": "C92_git_partial and C92_changed_partial need the module at the top of the repository and files that are not renamed (counterexamples otherwise). The blocks of a file (go/ast) and the comparison of two texts (a JavaScript program) are parameters."
  },
  {
   "property": "C93",
   "status": "partial",
   "theorems": [
    "Verif.Instrument.GenFile.C93_names",
    "Verif.Instrument.GenFile.C93_names_counterexample",
    "Verif.Instrument.GenFile.C93_position",
    "Verif.Instrument.GenFile.C93_bom_counterexample",
    "Verif.Instrument.GenFile.C93_reads_partial",
    "Verif.Instrument.GenFile.C93_parallel_counterexample",
    "Verif.Instrument.GenFile.C93_compiled"
   ],
   "note": "C93_reads_partial needs that other runs do not write the same files (counterexample otherwise). What Go makes of //line comments and byte order marks is modelled from its scanner."
  },
  {
   "property": "C94",
   "status": "partial",
   "theorems": [
    "Verif.Support.GetGo.C94_names",
    "Verif.Support.GetGo.C94_inside",
    "Verif.Support.GetGo.C94_unzip",
    "Verif.Support.GetGo.C94_list",
    "Verif.Support.GetGo.C94_spelling",
    "Verif.Support.GetGo.C94_install_partial",
    "Verif.Support.GetGo.C94_kept",
    "Verif.Support.GetGo.C94_unlisted",
    "Verif.Support.GetGo.C94_platform_counterexample",
    "Verif.Support.GetGo.C94_page"
   ],
   "note": "C94_install_partial does not say for which platform the installation is (counterexample). Symbolic links and permissions are not modelled; curl, tar and the server are left open."
  },
  {
   "property": "C95",
   "status": "partial",
   "theorems": [
    "Verif.Runtime.TestTrace.C95_file_partial",
    "Verif.Runtime.TestTrace.C95_place",
    "Verif.Runtime.TestTrace.C95_distinct",
    "Verif.Runtime.TestTrace.C95_failed",
    "Verif.Runtime.TestTrace.C95_only",
    "Verif.Runtime.TestTrace.C95_kept",
    "Verif.Runtime.TestTrace.C95_sub",
    "Verif.Runtime.TestTrace.C95_trace",
    "Verif.Runtime.TestTrace.C95_inner_lost",
    "Verif.Runtime.TestTrace.C95_testmain_counterexample",
    "Verif.Runtime.TestTrace.C95_packages_counterexample",
    "Verif.Runtime.TestTrace.C95_chdir_counterexample",
    "Verif.Runtime.TestTrace.C95_outside_counterexample"
   ],
   "note": "C95_file_partial needs that nothing was registered on the goroutine or its ancestors and that the parts of the name are proper (counterexamples otherwise); the file is in the working directory that the test ends in. Arguments and results in the trace are C75, the goroutines in it C76."
  },
  {
   "property": "C96",
   "status": "partial",
   "theorems": [
    "Verif.Cmd.Handoff.C96_runs_partial",
    "Verif.Cmd.Handoff.C96_told_partial",
    "Verif.Cmd.Handoff.C96_compiles",
    "Verif.Cmd.Handoff.C96_unreadable",
    "Verif.Cmd.Handoff.C96_counterexample_overlap",
    "Verif.Cmd.Handoff.C96_counterexample_half_written",
    "Verif.Cmd.Handoff.C96_counterexample_nested",
    "Verif.Cmd.Handoff.C96_counterexample_names"
   ],
   "note": "false of the code for runs at the same time in one project, nested runs, commands and //line files (counterexamples); needs sums that tell selections apart (C51). JSON is taken to round-trip; which declarations can be trapped is C47."
  },
  {
   "property": "C97",
   "status": "partial",
   "theorems": [
    "Verif.Runtime.PatchTarget.C97_state",
    "Verif.Runtime.PatchTarget.C97_refused",
    "Verif.Runtime.PatchTarget.C97_quiet",
    "Verif.Runtime.PatchTarget.C97_catches_partial",
    "Verif.Runtime.PatchTarget.C97_only_partial",
    "Verif.Runtime.PatchTarget.C97_others",
    "Verif.Runtime.PatchTarget.C97_interface_runs",
    "Verif.Runtime.PatchTarget.C97_interface_expr",
    "Verif.Runtime.PatchTarget.C97_uncomparable",
    "Verif.Runtime.PatchTarget.C97_instances_wrong",
    "Verif.Runtime.PatchTarget.C97_interface_wrong",
    "Verif.Runtime.PatchTarget.C97_by_name_partial",
    "Verif.Runtime.PatchTarget.C97_by_name_generic"
   ],
   "note": "proved for instrumented code whose machine code is not shared with another instance and receivers that can be compared; false otherwise (theorems name the faults). Go 1.20 and later; the lookup by name is C38."
  },
  {
   "property": "C98",
   "status": "partial",
   "theorems": [
    "Verif.Runtime.InitPhase.C98_calls_partial",
    "Verif.Runtime.InitPhase.C98_after",
    "Verif.Runtime.InitPhase.C98_trace_after_partial",
    "Verif.Runtime.InitPhase.C98_trace_in_init",
    "Verif.Runtime.InitPhase.C98_trace_once",
    "Verif.Runtime.InitPhase.C98_counterexample_shared",
    "Verif.Runtime.InitPhase.C98_counterexample_end"
   ],
   "note": "false of the code during initialisation (counterexamples; C98_trace_in_init for all histories). Events are atomic: data races on the shared maps are not modelled."
  },
  {
   "property": "C99",
   "status": "partial",
   "theorems": [
    "Verif.Runtime.LooseJson.C99_mode",
    "Verif.Runtime.LooseJson.C99_shown",
    "Verif.Runtime.LooseJson.C99_args",
    "Verif.Runtime.LooseJson.C99_load",
    "Verif.Runtime.LooseJson.C99_own_partial",
    "Verif.Runtime.LooseJson.C99_method_counterexample",
    "Verif.Runtime.LooseJson.C99_goroutine_counterexample",
    "Verif.Runtime.LooseJson.C99_exit_counterexample",
    "Verif.Runtime.LooseJson.C99_error_counterexample",
    "Verif.Runtime.LooseJson.C99_value_counterexample"
   ],
   "note": "C99_own_partial and C99_args need the traced values to be gentle: nothing in them ends the goroutine and all errors have a message; without that the claim is false of the code (counterexamples). The text of JSON is C75's, kinds and tags of Go types are encoding/json's."
  },
  {
   "property": "C100",
   "status": "proved",
   "theorems": [
    "Verif.Runtime.Mutex.C100_linearizable",
    "Verif.Runtime.Mutex.C100_exclusive",
    "Verif.Runtime.Mutex.C100_whole",
    "Verif.Runtime.Mutex.C100_complete",
    "Verif.Runtime.Mutex.C100_returns",
    "Verif.Runtime.Mutex.C100_atomic",
    "Verif.Runtime.Mutex.C100_moment",
    "Verif.Runtime.Mutex.C100_copy",
    "Verif.Runtime.Mutex.C100_reenter",
    "Verif.Runtime.Mutex.C100_counterexample_reenter",
    "Verif.Runtime.Mutex.C100_counterexample_no_mutex",
    "Verif.Runtime.Mutex.C100_counterexample_var",
    "Verif.Runtime.Mutex.C100_counterexample_torn"
   ],
   "note": "Goroutines pass to Finish only entries that PushNew has returned to them on the same stack (Sane), which is how trap.go and var.go use it. Reads and writes are single steps (sequential consistency); the fairness of sync.Mutex is not modelled: C100_returns says that every call can return from every state."
  },
  {
   "property": "C101",
   "status": "partial",
   "theorems": [
    "Verif.Support.HttpJson.C101_answer_partial",
    "Verif.Support.HttpJson.C101_success_partial",
    "Verif.Support.HttpJson.C101_options",
    "Verif.Support.HttpJson.C101_panic",
    "Verif.Support.HttpJson.C101_error_type",
    "Verif.Support.HttpJson.C101_poll",
    "Verif.Support.HttpJson.C101_destroy",
    "Verif.Support.HttpJson.C101_bad_body",
    "Verif.Support.HttpJson.C101_no_body",
    "Verif.Support.HttpJson.C101_detail",
    "Verif.Support.HttpJson.C101_detail_bad",
    "Verif.Support.HttpJson.C101_detail_race"
   ],
   "note": "False of the code for panics whose value is an error (http.go:44 assigns e instead of err): C101_panic, C101_no_body, C101_detail_race. encoding/json, go/parser, strconv.Atoi and http.DetectContentType are parameters."
  },
  {
   "property": "C102",
   "status": "proved",
   "theorems": [
    "Verif.Instrument.GoHooks.C102_hooks",
    "Verif.Instrument.GoHooks.C102_again",
    "Verif.Instrument.GoHooks.C102_undo",
    "Verif.Instrument.GoHooks.C102_lines",
    "Verif.Instrument.GoHooks.C102_missing",
    "Verif.Instrument.GoHooks.C102_unsupported"
   ],
   "note": "Go's sources are any texts that have the anchors as Spec.Hooked says (time.go ends with a line break, as gofmt leaves it); reading and writing files succeed; the mark file and xgo_trap.go are left out."
  },
  {
   "property": "C103",
   "status": "partial",
   "theorems": [
    "Verif.Cmd.Tool.C103_builtin",
    "Verif.Cmd.Tool.C103_runs_partial",
    "Verif.Cmd.Tool.C103_only",
    "Verif.Cmd.Tool.C103_slash",
    "Verif.Cmd.Tool.C103_itself",
    "Verif.Cmd.Tool.C103_by_name",
    "Verif.Cmd.Tool.C103_other_program"
   ],
   "note": "The full claim is false: the directory is that of os.Args[0]. Started by its name or as ./xgo, xgo does not look beside itself; with a file of the tool's name in the working directory it runs the first program of that name on PATH (C103_by_name, C103_other_program). Unix; the name / and the names . and .. are not covered by C103_only."
  },
  {
   "property": "C104",
   "status": "proved",
   "theorems": [
    "Verif.Instrument.GoCmd.C104_edits",
    "Verif.Instrument.GoCmd.C104_again",
    "Verif.Instrument.GoCmd.C104_undo",
    "Verif.Instrument.GoCmd.C104_lines",
    "Verif.Instrument.GoCmd.C104_missing",
    "Verif.Instrument.GoCmd.C104_unsupported"
   ],
   "note": "The sources are any texts that have the anchors as Spec.Edited says, with buildActionID before build (as it is in Go) and runCover on either side; reading and writing files succeed; the files that are written as a whole are left out. The compiler's file has no check of the version."
  },
  {
   "property": "C105",
   "status": "proved",
   "theorems": [
    "Verif.Instrument.GoComp.C105_noder",
    "Verif.Instrument.GoComp.C105_builtin",
    "Verif.Instrument.GoComp.C105_missing",
    "Verif.Instrument.GoComp.C105_unsupported",
    "Verif.Instrument.GoComp.C105_nodes"
   ],
   "note": "The sources are any texts that have the anchors as Spec.Noder and Spec.Builtin say; reading and writing files succeed; the run of mkbuiltin.go and the copying of xgo's compiler package are left out."
  },
  {
   "property": "C106",
   "status": "partial",
   "theorems": [
    "Verif.Instrument.GoDebug.C106_second",
    "Verif.Instrument.GoDebug.C106_plain",
    "Verif.Instrument.GoDebug.C106_shell",
    "Verif.Instrument.GoDebug.C106_exec_partial",
    "Verif.Instrument.GoDebug.C106_lost",
    "Verif.Instrument.GoDebug.C106_missing",
    "Verif.Instrument.GoDebug.C106_unsupported"
   ],
   "note": "False up to Go 1.21: C106_exec_partial and C106_lost show that exec.go has the debugger's edits only. C106_second: the second of two edits of a file always undoes the first. Only development builds of xgo set up for debugging. Texts are any that have the anchors as Spec.Debug and C104's Spec.Edited say; the edits of go test and the building are left out."
  },
  {
   "property": "C107",
   "status": "partial",
   "theorems": [
    "Verif.Cmd.Upgrade.C107_install",
    "Verif.Cmd.Upgrade.C107_message",
    "Verif.Cmd.Upgrade.C107_latest_partial",
    "Verif.Cmd.Upgrade.C107_shadowed",
    "Verif.Cmd.Upgrade.C107_first",
    "Verif.Cmd.Upgrade.C107_broken",
    "Verif.Cmd.Upgrade.C107_ignored",
    "Verif.Cmd.Upgrade.C107_crash"
   ],
   "note": "False of the code: C107_ignored, C107_crash, C107_shadowed, C107_broken, C107_first. C107_latest_partial holds if the directory of go install comes before any other xgo. go install is one step that fails or puts one program into one directory; code after the `if true` of Upgrade is not reached and left out."
  },
  {
   "property": "C108",
   "status": "partial",
   "theorems": [
    "Verif.Cmd.CovProfile.C108_own_partial",
    "Verif.Cmd.CovProfile.C108_shared",
    "Verif.Cmd.CovProfile.C108_clash",
    "Verif.Cmd.CovProfile.C108_below_partial",
    "Verif.Cmd.CovProfile.C108_escape",
    "Verif.Cmd.CovProfile.C108_nested"
   ],
   "note": "False of the code: C108_shared/C108_clash, C108_escape, C108_nested. Proved for all histories of projects with ordinary names (letters, digits, . _ - and what is not ASCII). No profile is configured; sessions do not overlap; paths are absolute and clean."
  },
  {
   "property": "C109",
   "status": "partial",
   "theorems": [
    "Verif.Cmd.ExplorerDebug.C109_only_cases",
    "Verif.Cmd.ExplorerDebug.C109_debugged",
    "Verif.Cmd.ExplorerDebug.C109_same_partial",
    "Verif.Cmd.ExplorerDebug.C109_flags_lost",
    "Verif.Cmd.ExplorerDebug.C109_env",
    "Verif.Cmd.ExplorerDebug.C109_where",
    "Verif.Cmd.ExplorerDebug.C109_binary",
    "Verif.Cmd.ExplorerDebug.C109_command",
    "Verif.Cmd.ExplorerDebug.C109_effects",
    "Verif.Cmd.ExplorerDebug.C109_once"
   ],
   "note": "False of the code: C109_flags_lost, C109_env (build). Proved: the same build flags, package, settings and arguments when the configuration has no flags for the binary. Flags of the configuration are single words (-name=value); what go test, dlv and the test's binary make of their arguments is a specification, not a model of their code; settings that go test adds of itself (-test.timeout) are left out."
  },
  {
   "property": "C110",
   "status": "partial",
   "theorems": [
    "Verif.Cmd.CaseTrace.C110_place",
    "Verif.Cmd.CaseTrace.C110_own",
    "Verif.Cmd.CaseTrace.C110_latest_partial",
    "Verif.Cmd.CaseTrace.C110_stale",
    "Verif.Cmd.CaseTrace.C110_clash",
    "Verif.Cmd.CaseTrace.C110_reversed",
    "Verif.Cmd.CaseTrace.Records.C110_records",
    "Verif.Cmd.CaseTrace.Records.C110_no_trace"
   ],
   "note": "False of the code: C110_stale, C110_clash, C110_reversed. Proved: a trace that this run wrote is the one shown, always; and for all histories of projects that are modules themselves, without directories named like tests, the trace shown is the latest of the same case of the same package. Sessions do not overlap, sums of the modules' paths differ, names of directories and tests are ordinary; reading the JSON is left out, showing what was read is not (C110_records)."
  }
 ]
}