Verif.Runtime.C01_latest_uncancelled_mock: propext Classical.choice Quot.sound
Verif.Runtime.C02_cancel_removes_exactly_own: propext Classical.choice Quot.sound
Verif.Runtime.C02_cancel_panics_iff: propext Classical.choice Quot.sound
Verif.Runtime.C03_double_cancel_panics: propext Classical.choice Quot.sound
Verif.Runtime.C04_goroutine_isolation: propext Classical.choice Quot.sound
Verif.Runtime.C05_inherits_snapshot: propext Classical.choice Quot.sound
Verif.Runtime.C05_later_independent: propext Classical.choice Quot.sound
Verif.Runtime.C06_global_permanent: propext Classical.choice Quot.sound
Verif.Runtime.C09_counterexample: propext
Verif.Runtime.C09_unbound_recorders_partial: propext Classical.choice Quot.sound
Verif.Runtime.Exec.C07_mock_only_for_its_instance: propext Classical.choice Quot.sound
Verif.Runtime.Exec.C07_recorder_pre_only_for_its_instance: propext Classical.choice Quot.sound
Verif.Runtime.Exec.C07_recorder_post_counterexample: propext
Verif.Runtime.Exec.C07_recorder_post_partial: propext Classical.choice Quot.sound
Verif.Runtime.Exec.C08_counterexample: propext
Verif.Runtime.Exec.C08_last_bound_mock_partial: propext Classical.choice Quot.sound
Verif.Runtime.Exec.C10_one_implementation: propext Classical.choice Quot.sound
Verif.Runtime.Exec.C10_which_implementation: propext Classical.choice Quot.sound
Verif.Runtime.Exec.C11_pre_order: propext Classical.choice Quot.sound
Verif.Runtime.Exec.C11_onion_partial: propext Classical.choice Quot.sound
Verif.Runtime.Exec.C11_counterexample: propext
Verif.Runtime.Exec.C11_counterexample_nil: propext
Verif.Runtime.C11_handler_order: propext Classical.choice Quot.sound
Verif.Runtime.Exec.C12_general_interceptors_never_nested: propext Quot.sound
Verif.Runtime.Exec.C12_interception_terminates: propext Quot.sound
Verif.Runtime.Exec.C12_no_trace_in_hooks_partial: propext Classical.choice Quot.sound
Verif.Runtime.Exec.C12_trace_counterexample: propext
Verif.Runtime.Exec.C13_depth_balanced: propext Quot.sound
Verif.Runtime.Exec.C13_interceptors_stay_enabled: propext Classical.choice Quot.sound
Verif.Runtime.Exec.C14_trace_is_call_tree_partial: propext Quot.sound
Verif.Runtime.Exec.C14_traced_iff: propext Classical.choice Quot.sound
Verif.Runtime.Exec.C14_counterexample: propext
Verif.Runtime.Stack.C14_exported_trace_partial: propext Classical.choice Quot.sound
Verif.Runtime.Stack.C15_ids: propext Classical.choice Quot.sound
Verif.Runtime.Stack.C15_each_entry_once: propext Classical.choice Quot.sound
Verif.Runtime.Stack.C16_times_nest_partial: propext Classical.choice Quot.sound
Verif.Runtime.Stack.C16_counterexample: propext
Verif.Runtime.Stack.C16_no_entry_ends_before_it_begins: propext Classical.choice Quot.sound
Verif.Runtime.C17_counterexample: propext Quot.sound
Verif.Runtime.C17_view_kept_partial: propext Quot.sound
Verif.Runtime.C17_recording_drops_all: propext
Verif.Runtime.C18_counterexample: propext Quot.sound
Verif.Runtime.C18_no_residue_partial: propext Quot.sound
Verif.Runtime.Var.C19_read_partial: propext Classical.choice Quot.sound
Verif.Runtime.Var.C19_variable_untouched: propext Quot.sound
Verif.Runtime.Var.C19_address_unaffected_by_value_mocks: propext Classical.choice Quot.sound
Verif.Runtime.Var.C19_counterexample: propext
Verif.Runtime.Build.C20_counterexample: propext Quot.sound
Verif.Runtime.Build.C20_single_hook_partial: propext Quot.sound
Verif.Runtime.Build.C20_pre_argument_type_partial: propext Classical.choice Quot.sound
Verif.Runtime.Build.C20_post_pointer_counterexample: propext Classical.choice Quot.sound
Verif.Runtime.Build.C21_replacer_plumbing: propext Quot.sound
Verif.Runtime.Build.C22_counterexample: propext Quot.sound
Verif.Runtime.Build.C22_right_type_crashes: propext Classical.choice Quot.sound
Verif.Runtime.Build.C22_patch_by_name_partial: propext Classical.choice Quot.sound
Verif.Runtime.CallValue.C23_post_error: propext
Verif.Runtime.CallValue.C23_mock_error: propext
Verif.Runtime.CallValue.C23_errmocked_aborts: propext Quot.sound
Verif.Runtime.CallValue.C23_errmocked_never_visible: propext Quot.sound
Verif.Runtime.CallValue.C23_pre_error_lost: propext
Verif.Runtime.Build.C23_interceptor_fields: propext Quot.sound
Verif.Runtime.Build.C23_get_field: propext Quot.sound
Verif.Runtime.Slice.C43_counterexample: propext
Verif.Runtime.Slice.C43_counterexample_push: propext
Verif.Runtime.Slice.C43_copied_partial: propext Quot.sound
Verif.Runtime.Slice.C43_push_only_partial: propext Quot.sound
Verif.Runtime.Slice.C43_lifo_partial: propext Quot.sound
Verif.Text.C27_bytes: propext Classical.choice Quot.sound
Verif.Text.C27_call_order_irrelevant: propext Classical.choice Quot.sound
Verif.Text.C27_bytes_no_effect: propext Classical.choice Quot.sound
Verif.Text.C27_untouched_ends: propext Classical.choice Quot.sound
Verif.Text.C27_one_insert: propext Classical.choice Quot.sound
Verif.Text.C27_one_replace: propext Classical.choice Quot.sound
Verif.Support.Pattern.C28_match_partial: propext Quot.sound
Verif.Support.Pattern.C28_match_any_partial: propext Quot.sound
Verif.Support.Pattern.C28_prefix_complete_partial: propext Quot.sound
Verif.Support.Pattern.C28_counterexample: propext Classical.choice Quot.sound
Verif.Support.Pattern.C28_prefix_counterexample: propext Classical.choice Quot.sound
Verif.Support.Pattern.C28_any_prefix_partial: propext Quot.sound
Verif.Support.Semver.C29_valid_iff: propext Classical.choice Quot.sound
Verif.Support.Semver.C29_compare: propext Classical.choice Quot.sound
Verif.Support.Semver.C29_invalid: propext
Verif.Support.Semver.C29_total_preorder: propext Classical.choice Quot.sound
Verif.Support.GoVersion.C30_valid_iff: propext Classical.choice Quot.sound
Verif.Support.GoVersion.C30_compare: propext Classical.choice Quot.sound
Verif.Support.GoVersion.C30_invalid: propext Classical.choice Quot.sound
Verif.Support.GoVersion.C30_total_preorder: propext Classical.choice Quot.sound
Verif.Support.GoVersion.C30_parse_go_version: propext Classical.choice Quot.sound
Verif.Support.GoVersion.C30_string_round_trip: propext Classical.choice Quot.sound
Verif.Support.Coverage.C31_merge: propext Classical.choice Quot.sound
Verif.Support.Coverage.C31_blocks: propext Classical.choice Quot.sound
Verif.Support.Coverage.C31_order_irrelevant: propext Classical.choice Quot.sound
Verif.Support.Coverage.C31_arguments_change: propext
Verif.Support.Coverage.C32_parse_format: propext Classical.choice Quot.sound
Verif.Support.Coverage.C32_round_trip: propext Classical.choice Quot.sound
Verif.Support.Coverage.C32_crlf_counts_lost: propext Classical.choice Quot.sound
Verif.Instrument.Overlay.C33_compose: propext Quot.sound
Verif.Instrument.Overlay.C33_fails_iff: propext Quot.sound
Verif.Instrument.Overlay.C33_error_names_cycle: propext Quot.sound
Verif.Instrument.Overlay.C33_project: propext Quot.sound
Verif.Instrument.Overlay.C33_canonical_spelling_wins: propext Quot.sound
Verif.Instrument.Overlay.C33_canonical_mappings: propext Quot.sound
Verif.Instrument.Overlay.C33_aliases_counterexample: propext
Verif.Instrument.Overlay.C44_rewritten: propext Classical.choice Quot.sound
Verif.Instrument.Overlay.C44_untouched: propext Classical.choice Quot.sound
Verif.Instrument.Overlay.C44_user_replacement_partial: propext Classical.choice Quot.sound
Verif.Instrument.Overlay.C44_reads: propext Classical.choice Quot.sound
Verif.Instrument.Overlay.C44_builds: propext Classical.choice Quot.sound
Verif.Instrument.Overlay.C44_counterexample_chain: propext Quot.sound
Verif.Instrument.Overlay.C44_counterexample_swap: propext Quot.sound
Verif.Instrument.Overlay.C44_counterexample_spelling: propext Quot.sound
Verif.Instrument.Rules.C34_match: propext Classical.choice Quot.sound
Verif.Instrument.Rules.C34_first_rule: propext Classical.choice Quot.sound
Verif.Instrument.Rules.C34_comma_list: propext
Verif.Instrument.Rules.C34_usual_patterns_partial: propext Classical.choice Quot.sound
Verif.Instrument.Rules.C34_counterexample: propext Classical.choice Quot.sound
Verif.Instrument.Rules.C35_merge: propext
Verif.Instrument.Rules.C35_command_line_first: propext Classical.choice Quot.sound
Verif.Instrument.Rules.C35_fails_iff: propext Quot.sound
Verif.Instrument.Rules.C45_within: propext Classical.choice Quot.sound
Verif.Instrument.Rules.C45_agree: propext Classical.choice Quot.sound
Verif.Instrument.Rules.C45_main: propext Classical.choice Quot.sound
Verif.Instrument.Rules.C45_module_list: propext Quot.sound
Verif.Instrument.Rules.C46_pattern: propext Classical.choice Quot.sound
Verif.Instrument.Rules.C46_packages: propext Classical.choice Quot.sound
Verif.Instrument.Rules.C46_main_partial: propext Classical.choice Quot.sound
Verif.Instrument.Rules.C46_counterexample: propext Classical.choice Quot.sound
Verif.Cmd.C36_recognised: propext Classical.choice Quot.sound
Verif.Cmd.C36_two_forms: propext Classical.choice Quot.sound
Verif.Cmd.C36_value_arrives: propext Classical.choice Quot.sound
Verif.Cmd.C48_subsequence: propext Classical.choice Quot.sound
Verif.Cmd.C48_untouched: propext Classical.choice Quot.sound
Verif.Cmd.C48_test_args: propext Classical.choice Quot.sound
Verif.Cmd.C48_program_args_partial: propext Classical.choice Quot.sound
Verif.Cmd.C48_flags_anywhere_partial: propext Classical.choice Quot.sound
Verif.Cmd.C48_go_command: propext Classical.choice Quot.sound
Verif.Cmd.C48_debug: propext Classical.choice Quot.sound
Verif.Cmd.C48_debug_run: propext Classical.choice Quot.sound
Verif.Cmd.C48_xgo_flags: propext
Verif.Cmd.C48_counterexample: propext Classical.choice Quot.sound
Verif.Cmd.C49_packages_partial: propext Classical.choice Quot.sound
Verif.Cmd.C49_counterexample: propext Classical.choice Quot.sound
Verif.Runtime.CallValue.C50_watchers_invisible_partial: propext Classical.choice Quot.sound
Verif.Runtime.CallValue.C50_counterexample: propext Quot.sound
Verif.Instrument.FuncTrap.C40_names_kept: propext Classical.choice Quot.sound
Verif.Instrument.FuncTrap.C40_distinct: propext Classical.choice Quot.sound
Verif.Instrument.FuncTrap.C40_compiler: propext Classical.choice Quot.sound
Verif.Instrument.FuncTrap.C47_untouchable: propext Classical.choice Quot.sound
Verif.Instrument.FuncTrap.C47_under_test: propext Classical.choice Quot.sound
Verif.Instrument.FuncTrap.C47_named_packages: propext Classical.choice Quot.sound
Verif.Instrument.FuncTrap.C47_dependency_only: propext Classical.choice Quot.sound
Verif.Instrument.FuncTrap.C47_dependency_partial: propext Classical.choice Quot.sound
Verif.Instrument.FuncTrap.C47_counterexample: propext Classical.choice Quot.sound
Verif.Instrument.FuncTrap.C47_counterexample_panic: propext Classical.choice Quot.sound
Verif.Instrument.FuncTrap.C47_compiler_partial: propext Classical.choice Quot.sound
Verif.Instrument.FuncTrap.C47_counterexample_init: propext Classical.choice Quot.sound
Verif.Instrument.FuncTrap.C47_batches: propext Quot.sound
Verif.Instrument.FuncTrap.C47_interfaces: propext Classical.choice Quot.sound
Verif.Instrument.FuncTrap.C47_stdlib: propext Classical.choice Quot.sound
Verif.Instrument.FuncTrap.C51_more_functions_partial: propext Classical.choice Quot.sound
Verif.Instrument.FuncTrap.C51_variable_partial: propext Classical.choice Quot.sound
Verif.Instrument.FuncTrap.C51_counterexample: propext Classical.choice Quot.sound
Verif.Instrument.FuncTrap.C53_distinct: propext Classical.choice Quot.sound
Verif.Instrument.FuncTrap.C53_declared: propext Classical.choice Quot.sound
Verif.Instrument.FuncTrap.C53_compiler_distinct: propext Classical.choice Quot.sound
Verif.Instrument.FuncTrap.C53_compiler_declared_partial: propext Classical.choice Quot.sound
Verif.Instrument.FuncTrap.C53_counterexample: propext Classical.choice Quot.sound
Verif.Instrument.FuncTrap.C53_counterexample_type: propext Classical.choice Quot.sound
Verif.Instrument.FuncTrap.C53_getter_pair: propext Classical.choice Quot.sound
Verif.Instrument.FuncTrap.C53_getters_partial: propext Classical.choice Quot.sound
Verif.Instrument.FuncTrap.C53_counterexample_getter: propext Classical.choice Quot.sound
Verif.Instrument.FuncTrap.C54_receiver_partial: propext Classical.choice Quot.sound
Verif.Instrument.FuncTrap.C54_counterexample: propext Classical.choice Quot.sound
Verif.Runtime.Functab.C37_parse_partial: propext Classical.choice Quot.sound
Verif.Runtime.Functab.C37_counterexample_nested: propext Classical.choice Quot.sound
Verif.Runtime.Functab.C37_counterexample_dot: propext Classical.choice Quot.sound
Verif.Runtime.Functab.C37_counterexample_panic: propext Classical.choice Quot.sound
Verif.Runtime.Functab.C38_registered: propext Quot.sound
Verif.Runtime.Functab.C38_succeeds: propext Quot.sound
Verif.Runtime.Functab.C38_by_package: propext Classical.choice Quot.sound
Verif.Runtime.Functab.C38_full_name: propext Classical.choice Quot.sound
Verif.Runtime.Functab.C38_generic_partial: propext Classical.choice Quot.sound
Verif.Runtime.Functab.C38_interface: propext Classical.choice Quot.sound
Verif.Runtime.Functab.C38_pointer_method: propext Classical.choice Quot.sound
Verif.Runtime.Functab.C38_inspect: propext Classical.choice Quot.sound
Verif.Runtime.Functab.C38_staging: propext
Verif.Runtime.Tls.C41_values: propext Quot.sound
Verif.Runtime.Tls.C41_isolated: propext Quot.sound
Verif.Runtime.Tls.C41_own: propext Quot.sound
Verif.Runtime.Tls.C41_inherit: propext Quot.sound
Verif.Runtime.Tls.C41_stable: propext Quot.sound
Verif.Runtime.Functab.C55_method_partial: propext Quot.sound
Verif.Runtime.Functab.C55_counterexample_late: propext Classical.choice Quot.sound
Verif.Runtime.Functab.C55_by_name_partial: propext Classical.choice Quot.sound
Verif.Runtime.Functab.C55_counterexample: propext Classical.choice Quot.sound
Verif.Instrument.PatchText.C25_clean: propext Classical.choice Quot.sound
Verif.Instrument.PatchText.C25_clear: propext Classical.choice Quot.sound
Verif.Instrument.PatchText.C25_untouched: propext Classical.choice Quot.sound
Verif.Instrument.PatchText.C25_counterexample_nested: propext Classical.choice Quot.sound
Verif.Instrument.PatchText.C25_counterexample_comment: propext Classical.choice Quot.sound
Verif.Instrument.PatchText.C25_counterexample_line: propext Classical.choice Quot.sound
Verif.Instrument.PatchText.C26_insert: propext Classical.choice Quot.sound
Verif.Instrument.PatchText.C26_ambiguous: propext Classical.choice Quot.sound
Verif.Instrument.PatchText.C26_again: propext Classical.choice Quot.sound
Verif.Instrument.PatchText.C26_counterexample_replace: propext Classical.choice Quot.sound
Verif.Instrument.PatchText.C26_replaceAfter: propext Classical.choice Quot.sound
Verif.Instrument.PatchText.C26_afterName: propext Classical.choice Quot.sound
Verif.Instrument.PatchText.C26_remove: propext Classical.choice Quot.sound
Verif.Instrument.PatchText.C26_counterexample_comment: propext Classical.choice Quot.sound
Verif.Instrument.PatchText.C56_edit_partial: propext Classical.choice Quot.sound
Verif.Instrument.PatchText.C56_error: propext Classical.choice Quot.sound
Verif.Instrument.PatchText.C56_idempotent: propext Classical.choice Quot.sound
Verif.Instrument.PatchText.C56_counterexample: propext Classical.choice Quot.sound
Verif.Instrument.PatchApply.C24_block_partial: propext Classical.choice Quot.sound
Verif.Instrument.PatchApply.C24_edits_partial: propext Classical.choice Quot.sound
Verif.Instrument.PatchApply.C24_blocks_partial: propext Classical.choice Quot.sound
Verif.Instrument.PatchApply.C24_counterexample_blocks: propext Classical.choice Quot.sound
Verif.Instrument.PatchApply.C24_counterexample_unnamed: propext Classical.choice Quot.sound
Verif.Instrument.PatchApply.C57_places: propext Classical.choice Quot.sound
Verif.Instrument.PatchApply.C57_edits_partial: propext Classical.choice Quot.sound
Verif.Instrument.PatchApply.C57_space: propext Classical.choice Quot.sound
Verif.Instrument.PatchApply.C57_copy: propext Classical.choice Quot.sound
Verif.Instrument.PatchApply.C57_directive: propext Classical.choice Quot.sound
Verif.Instrument.PatchApply.C57_counterexample_order: propext Classical.choice Quot.sound
Verif.Instrument.PatchApply.C57_counterexample_after: propext Classical.choice Quot.sound
Verif.Instrument.PatchApply.C57_counterexample_stacked: propext Classical.choice Quot.sound
Verif.Instrument.PatchApply.C57_counterexample_mixed: propext Classical.choice Quot.sound
Verif.Instrument.PatchApply.C57_counterexample_nowhere: propext Classical.choice Quot.sound
Verif.Instrument.PatchApply.C57_counterexample_twice: propext Classical.choice Quot.sound
Verif.Instrument.PatchApply.C57_counterexample_receiver: propext Classical.choice Quot.sound
Verif.Instrument.PatchApply.C57_counterexample_copy: propext Classical.choice Quot.sound
Verif.Instrument.PatchApply.C57_counterexample_braces: propext Classical.choice Quot.sound
Verif.Instrument.PatchParse.C58_read: propext Classical.choice Quot.sound
Verif.Instrument.PatchParse.C58_print: propext Classical.choice Quot.sound
Verif.Instrument.PatchParse.C58_refused: propext Classical.choice Quot.sound
Verif.Instrument.PatchParse.C58_unclosed: propext Classical.choice Quot.sound
Verif.Instrument.PatchParse.C58_counterexample_comment: propext Classical.choice Quot.sound
Verif.Instrument.PatchParse.C58_counterexample_close: propext Classical.choice Quot.sound
Verif.Instrument.PatchParse.C58_counterexample_trail: propext Classical.choice Quot.sound
Verif.Instrument.PatchParse.C58_apply: propext Classical.choice Quot.sound
Verif.Support.LineEdit.C42_apply: propext Classical.choice Quot.sound
Verif.Support.LineEdit.C42_error: propext Classical.choice Quot.sound
Verif.Support.LineEdit.C42_order: propext Classical.choice Quot.sound
Verif.Support.LineEdit.C42_unpatch: propext Classical.choice Quot.sound
Verif.Support.LineEdit.C42_untouched: propext Classical.choice Quot.sound
Verif.Support.LineEdit.C42_match: propext Classical.choice Quot.sound
Verif.Support.LineEdit.C42_counterexample_zero: propext Classical.choice Quot.sound
Verif.Support.LineEdit.C42_counterexample_blank: propext Classical.choice Quot.sound
Verif.Support.LineEdit.C42_counterexample_unnamed: propext Classical.choice Quot.sound
Verif.Support.LineEdit.C42_counterexample_match: none
Verif.Support.LineEdit.C42_one: propext Classical.choice Quot.sound
Verif.Cmd.GitIgnore.C52_added: propext Quot.sound
Verif.Cmd.GitIgnore.C52_idempotent: propext Quot.sound
Verif.Cmd.GitIgnore.C52_ignored_partial: propext Quot.sound
Verif.Cmd.GitIgnore.C52_counterexample: propext Classical.choice Quot.sound
Verif.Instrument.Resolve.C39_sound_partial: propext Classical.choice Quot.sound
Verif.Instrument.Resolve.C39_counterexample_select: propext Classical.choice Quot.sound
Verif.Instrument.Resolve.C39_counterexample_typeParam: propext Classical.choice Quot.sound
Verif.Instrument.Resolve.C39_rewritten_partial: propext Classical.choice Quot.sound
Verif.Instrument.Resolve.C59_once: propext Quot.sound
Verif.Instrument.Resolve.C59_complete_partial: propext Classical.choice Quot.sound
Verif.Instrument.Resolve.C59_counterexample_shadow: propext
Verif.Instrument.Resolve.C59_counterexample_range: propext
Verif.Instrument.Resolve.C59_counterexample_position: propext
Verif.Instrument.Resolve.C59_rewritten_partial: propext Classical.choice Quot.sound
Verif.Instrument.Resolve.C60_value: propext Classical.choice Quot.sound
Verif.Instrument.Resolve.C60_amp: propext Classical.choice Quot.sound
Verif.Instrument.Resolve.C60_amp_qualified: propext Classical.choice Quot.sound
Verif.Instrument.Resolve.C60_amp_field_ptr: propext Classical.choice Quot.sound
Verif.Instrument.Resolve.C60_amp_field_value: propext
Verif.Instrument.Resolve.C60_method: propext Classical.choice Quot.sound
Verif.Instrument.Resolve.C60_counterexample: propext
Verif.Support.FileCopy.C61_copy: propext Classical.choice Quot.sound
Verif.Support.FileCopy.C61_replace: propext Classical.choice Quot.sound
Verif.Support.FileCopy.C61_again_partial: propext Classical.choice Quot.sound
Verif.Support.FileCopy.C61_counterexample_link: propext Classical.choice Quot.sound
Verif.Support.FileCopy.C61_concurrent_partial: propext Quot.sound
Verif.Support.FileCopy.C61_concurrent_files_partial: propext Classical.choice Quot.sound
Verif.Support.FileCopy.C61_concurrent_error: propext Quot.sound
Verif.Support.FileCopy.C61_concurrent_quiet: propext Quot.sound
Verif.Support.FileCopy.C61_concurrent_progress: propext Classical.choice Quot.sound
Verif.Support.FileCopy.C61_concurrent_terminates: propext Classical.choice Quot.sound
Verif.Support.FileCopy.C61_counterexample: none
Verif.Support.FileCopy.C61_counterexample_never_tried: none
Verif.Instrument.Unified.C62_names: propext Classical.choice Quot.sound
Verif.Instrument.Unified.C62_alias: propext Classical.choice Quot.sound
Verif.Instrument.Unified.C62_all_run: propext Classical.choice Quot.sound
Verif.Instrument.Unified.C62_keys_partial: propext Classical.choice Quot.sound
Verif.Instrument.Unified.C62_report_partial: propext Classical.choice Quot.sound
Verif.Instrument.Unified.C62_select_partial: propext Classical.choice Quot.sound
Verif.Instrument.Unified.C62_dir_partial: propext Classical.choice Quot.sound
Verif.Instrument.Unified.C62_counterexample_clash: propext Classical.choice Quot.sound
Verif.Instrument.Unified.C62_counterexample_select: propext Classical.choice Quot.sound
Verif.Instrument.Unified.C62_counterexample_bench: propext Classical.choice Quot.sound
Verif.Instrument.Unified.C62_counterexample_parallel: propext Classical.choice Quot.sound
Verif.Support.Session.C63_once: propext Quot.sound
Verif.Support.Session.C63_order: propext Quot.sound
Verif.Support.Session.C63_stream: propext Classical.choice Quot.sound
Verif.Support.Session.C63_empty: propext Quot.sound
Verif.Support.Session.C63_progress: propext
Verif.Support.Session.C63_bound: propext Quot.sound
Verif.Support.Session.C63_two_polls: none
Verif.Support.Session.C63_ids: propext Classical.choice Quot.sound
Verif.Support.Session.C63_get: propext Classical.choice Quot.sound
Verif.Cmd.Explorer.C64_shown: propext Classical.choice Quot.sound
Verif.Cmd.Explorer.C64_listed: propext Classical.choice Quot.sound
Verif.Cmd.Explorer.C64_which: propext Classical.choice Quot.sound
Verif.Cmd.Explorer.C64_counterexample_listed: propext Classical.choice Quot.sound
Verif.Cmd.Explorer.C64_select_one: propext Classical.choice Quot.sound
Verif.Cmd.Explorer.C64_select_none: propext Classical.choice Quot.sound
Verif.Cmd.Explorer.C64_select_many: propext Classical.choice Quot.sound
Verif.Cmd.Explorer.C64_select_wanted: propext Classical.choice Quot.sound
Verif.Cmd.Explorer.C64_select_sub: propext Classical.choice Quot.sound
Verif.Cmd.Explorer.C64_select_sub_wanted: propext Classical.choice Quot.sound
Verif.Cmd.Explorer.C64_counterexample_prefix: propext Classical.choice Quot.sound
Verif.Cmd.Explorer.C64_counterexample_sub: propext Classical.choice Quot.sound
Verif.Cmd.Explorer.C64_counterexample_escape: propext Classical.choice Quot.sound
Verif.Cmd.Explorer.C64_dir_partial: propext Classical.choice Quot.sound
Verif.Cmd.Explorer.C64_file_partial: propext Classical.choice Quot.sound
Verif.Cmd.Explorer.C64_case: propext Classical.choice Quot.sound
Verif.Cmd.Explorer.C64_subtest_partial: propext Classical.choice Quot.sound
Verif.Cmd.Explorer.C64_counterexample_file: propext Classical.choice Quot.sound
Verif.Cmd.Explorer.C64_counterexample_excluded: propext Classical.choice Quot.sound
Verif.Cmd.Status.C65_final: propext Quot.sound
Verif.Cmd.Status.C65_end: propext Quot.sound
Verif.Cmd.Status.C65_sound: propext Quot.sound
Verif.Cmd.Status.C65_output: propext Quot.sound
Verif.Cmd.Status.C65_path: propext
Verif.Cmd.Status.C65_path_pkg: propext Quot.sound
Verif.Cmd.Status.C65_chain: propext Quot.sound
Verif.Cmd.Status.C65_found: propext Quot.sound
Verif.Cmd.Status.C65_single: propext Quot.sound
Verif.Cmd.Status.C65_counterexample_file: propext Classical.choice Quot.sound
Verif.Cmd.Status.C65_counterexample_build: propext Classical.choice Quot.sound
Verif.Cmd.Status.C65_counterexample_panic: propext Classical.choice Quot.sound
Verif.Cmd.Status.C65_counterexample_method: propext Classical.choice Quot.sound
Verif.Cmd.Status.C65_counterexample_unparsed: propext Classical.choice Quot.sound
Verif.Cmd.Status.C65_counterexample_crash: propext
Verif.Cmd.Status.C65_counterexample_json: propext Classical.choice Quot.sound
Verif.Cmd.Setup.C66_setup_partial: propext Quot.sound
Verif.Cmd.Setup.C66_resume_partial: propext Quot.sound
Verif.Cmd.Setup.C66_recover: propext Quot.sound
Verif.Cmd.Setup.C66_delete: propext Quot.sound
Verif.Cmd.Setup.C66_counterexample_reset: propext Quot.sound
Verif.Cmd.Setup.C66_counterexample_resetUpgrade: propext Quot.sound
Verif.Cmd.Setup.C66_counterexample_downgrade: propext Quot.sound
Verif.Cmd.Setup.C66_counterexample_buildCompiler: propext Quot.sound
Verif.Cmd.Setup.C66_counterexample_skip: propext Quot.sound
Verif.Cmd.Setup.C66_counterexample_filePatches: propext Quot.sound
Verif.Cmd.Setup.C66_counterexample_concurrent: propext
Verif.Instrument.Target.C67_sound_partial: propext Classical.choice Quot.sound
Verif.Instrument.Target.C67_direct_partial: propext Classical.choice Quot.sound
Verif.Instrument.Target.C67_plain_names: propext
Verif.Instrument.Target.C67_trap_all_partial: propext Classical.choice Quot.sound
Verif.Instrument.Target.Wrong.C67_param_not_recorded: propext
Verif.Instrument.Target.Wrong.C67_shadowed_wrong: propext
Verif.Instrument.Target.Wrong.C67_if_init_wrong: propext
Verif.Instrument.Target.Wrong.C67_late_wrong: propext
Verif.Instrument.Target.Wrong.C67_other_file_wrong: propext
Verif.Instrument.Target.Wrong.C67_defined_type_wrong: propext
Verif.Instrument.Target.Wrong.C67_first_field_not_recorded: propext Classical.choice Quot.sound
Verif.Instrument.Target.Wrong.C67_error_var_not_recorded: propext
Verif.Instrument.Target.Wrong.C67_mark_all_not_seen: propext
Verif.Instrument.Load.C68_ends: propext Quot.sound
Verif.Instrument.Load.C68_no_deadlock: propext Quot.sound
Verif.Instrument.Load.C68_no_crash: propext Quot.sound
Verif.Instrument.Load.C68_files_partial: propext Classical.choice Quot.sound
Verif.Instrument.Load.C68_packages_partial: propext Classical.choice Quot.sound
Verif.Instrument.Load.C68_which_files: propext Classical.choice Quot.sound
Verif.Instrument.Load.C68_at_rest: propext Quot.sound
Verif.Instrument.Load.C68_lines: propext
Verif.Instrument.Load.Wrong.C68_unreadable_kept: propext Classical.choice Quot.sound
Verif.Cmd.BlankImport.C69_import_partial: propext Classical.choice Quot.sound
Verif.Cmd.BlankImport.C69_only_imports: propext Classical.choice Quot.sound
Verif.Cmd.BlankImport.C69_linked_partial: propext Classical.choice Quot.sound
Verif.Cmd.BlankImport.C69_any_order: propext Classical.choice Quot.sound
Verif.Cmd.BlankImport.Wrong.C69_comment_after: propext Classical.choice Quot.sound
Verif.Cmd.BlankImport.Wrong.C69_comment_before: propext Classical.choice Quot.sound
Verif.Cmd.BlankImport.Wrong.C69_mixed_line_ends: propext Classical.choice Quot.sound
Verif.Cmd.BlankImport.Wrong.C69_two_semicolons: propext Classical.choice Quot.sound
Verif.Cmd.BlankImport.Wrong.C69_tab: propext Classical.choice Quot.sound
Verif.Cmd.BlankImport.Wrong.C69_mentioned: propext Classical.choice Quot.sound
Verif.Cmd.BlankImport.Wrong.C69_overlay_of_user: propext Classical.choice Quot.sound
Verif.Cmd.Vendor.C70_parse: propext Classical.choice Quot.sound
Verif.Cmd.Vendor.C70_space: propext Classical.choice Quot.sound
Verif.Cmd.Vendor.C70_batches: propext Quot.sound
Verif.Cmd.Vendor.C70_taken_from_vendor_partial: propext Classical.choice Quot.sound
Verif.Cmd.Vendor.C70_others_untouched: propext Classical.choice Quot.sound
Verif.Cmd.Vendor.C70_language_partial: propext Classical.choice Quot.sound
Verif.Cmd.Vendor.C70_mod_flag: propext Classical.choice Quot.sound
Verif.Cmd.Vendor.Wrong.C70_fork: propext Classical.choice Quot.sound
Verif.Cmd.Vendor.Wrong.C70_absolute: propext Classical.choice Quot.sound
Verif.Cmd.Vendor.Wrong.C70_language: propext Classical.choice Quot.sound
Verif.Cmd.Vendor.Wrong.C70_subdirectory: propext Classical.choice Quot.sound
Verif.Cmd.Vendor.Wrong.C70_no_packages: propext Classical.choice Quot.sound
Verif.Cmd.RuntimeCopy.C71_history_partial: propext Classical.choice Quot.sound
Verif.Cmd.RuntimeCopy.C71_first: propext Classical.choice Quot.sound
Verif.Cmd.RuntimeCopy.C71_forced: propext Classical.choice Quot.sound
Verif.Cmd.RuntimeCopy.C71_dir: propext Classical.choice Quot.sound
Verif.Cmd.RuntimeCopy.C71_own_partial: propext Classical.choice Quot.sound
Verif.Cmd.RuntimeCopy.C71_crash_partial: propext Classical.choice Quot.sound
Verif.Cmd.RuntimeCopy.C71_flags_counterexample: propext Classical.choice Quot.sound
Verif.Cmd.RuntimeCopy.C71_downgrade_counterexample: propext Classical.choice Quot.sound
Verif.Cmd.RuntimeCopy.C71_crash_counterexample: propext Classical.choice Quot.sound
Verif.Cmd.RuntimeCopy.C71_dir_counterexample: propext Classical.choice Quot.sound
Verif.Instrument.CoverNotes.C72_covered: propext Classical.choice Quot.sound
Verif.Instrument.CoverNotes.C72_plain: propext Classical.choice Quot.sound
Verif.Instrument.CoverNotes.C72_two_dashes_counterexample: propext Classical.choice Quot.sound
Verif.Instrument.VarType.C73_imports: propext Classical.choice Quot.sound
Verif.Instrument.VarType.C73_declared: propext Classical.choice Quot.sound
Verif.Instrument.VarType.C73_type_partial: propext Classical.choice Quot.sound
Verif.Instrument.VarType.C73_char_wrong: propext Classical.choice Quot.sound
Verif.Instrument.VarType.C73_float_wrong: propext Classical.choice Quot.sound
Verif.Instrument.VarType.C73_const_wrong: propext Classical.choice Quot.sound
Verif.Instrument.VarType.C73_pair_wrong: propext Classical.choice Quot.sound
Verif.Instrument.VarType.C73_files_wrong: propext Classical.choice Quot.sound
Verif.Instrument.VarType.C73_local_wrong: propext Classical.choice Quot.sound
Verif.Instrument.VarType.C73_xtest_wrong: propext Classical.choice Quot.sound
Verif.Instrument.VarType.C73_internal_import: propext Classical.choice Quot.sound
Verif.Cmd.GoMod.C74_nearest_partial: propext Classical.choice Quot.sound
Verif.Cmd.GoMod.C74_root_module: propext Classical.choice Quot.sound
Verif.Cmd.GoMod.C74_module_partial: propext Classical.choice Quot.sound
Verif.Cmd.GoMod.C74_module_tab: propext Classical.choice Quot.sound
Verif.Cmd.GoMod.C74_module_quoted: propext Classical.choice Quot.sound
Verif.Cmd.GoMod.C74_module_block: propext Classical.choice Quot.sound
Verif.Cmd.GoMod.C74_package_partial: propext Classical.choice Quot.sound
Verif.Cmd.GoMod.C74_project_root_partial: propext Classical.choice Quot.sound
Verif.Cmd.GoMod.C74_project_root_none: propext Classical.choice Quot.sound
Verif.Cmd.GoMod.C74_project_root_absolute: propext Classical.choice Quot.sound
Verif.Cmd.GoMod.C74_project_root_relative: propext Classical.choice Quot.sound
Verif.Cmd.GoMod.C74_project_root_slash: propext Classical.choice Quot.sound
Verif.Cmd.GoMod.C74_find_dir: propext Classical.choice Quot.sound
Verif.Cmd.GoMod.C74_scanned_partial: propext Classical.choice Quot.sound
Verif.Runtime.TraceJson.C75_json: propext Classical.choice Quot.sound
Verif.Runtime.TraceJson.C75_values_partial: propext Classical.choice Quot.sound
Verif.Runtime.TraceJson.C75_lost: propext Classical.choice Quot.sound
Verif.Runtime.TraceJson.C75_which: propext
Verif.Runtime.TraceJson.C75_error_text: propext
Verif.Runtime.TraceJson.C75_limit_bytes: propext Quot.sound
Verif.Runtime.TraceGo.C76_export_is_a_picture_partial: propext Classical.choice Quot.sound
Verif.Runtime.TraceGo.C76_every_call_is_shown_partial: propext Classical.choice Quot.sound
Verif.Runtime.TraceGo.C76_only_calls_of_the_trace_partial: propext Classical.choice Quot.sound
Verif.Runtime.TraceGo.C76_each_call_once_partial: propext Classical.choice Quot.sound
Verif.Runtime.TraceGo.C76_export_ends_partial: propext Classical.choice Quot.sound
Verif.Runtime.TraceGo.C76_times_partial: propext Classical.choice Quot.sound
Verif.Runtime.TraceGo.C76_race_safe_partial: propext Classical.choice Quot.sound
Verif.Runtime.TraceGo.C76_counterexample_dropped: propext Classical.choice Quot.sound
Verif.Runtime.TraceGo.C76_counterexample_never_ends: propext Classical.choice Quot.sound
Verif.Cmd.TraceView.C77_page: propext Classical.choice Quot.sound
Verif.Cmd.TraceView.C77_cost: propext Quot.sound
Verif.Cmd.TraceView.C77_data: propext Classical.choice Quot.sound
Verif.Cmd.TraceView.C77_name: propext Classical.choice Quot.sound
Verif.Cmd.TraceView.C77_read: propext Classical.choice Quot.sound
Verif.Cmd.TraceView.C77_first: propext Classical.choice Quot.sound
Verif.Cmd.TraceView.C77_serve: propext Classical.choice Quot.sound
Verif.Cmd.TraceView.C77_old: propext Classical.choice Quot.sound
Verif.Cmd.TraceView.C77_old_null: propext Classical.choice Quot.sound
Verif.Cmd.TraceView.C77_cut_partial: propext Classical.choice Quot.sound
Verif.Cmd.TraceView.C77_null_partial: propext Classical.choice Quot.sound
Verif.Cmd.TraceView.C77_title_raw_partial: propext Classical.choice Quot.sound
Verif.Runtime.Hooks.C78_registered: propext Quot.sound
Verif.Runtime.Hooks.C78_init_pending: propext Quot.sound
Verif.Runtime.Hooks.C78_init_partial: propext Quot.sound
Verif.Runtime.Hooks.C78_init_late_lost: propext Quot.sound
Verif.Runtime.Hooks.C78_trap: propext Quot.sound
Verif.Runtime.Hooks.C78_trap_twice: propext Quot.sound
Verif.Runtime.Hooks.C78_callbacks: propext Quot.sound
Verif.Runtime.Hooks.C78_go_starts_empty: propext Quot.sound
Verif.Runtime.Hooks.C78_state_partial: propext Quot.sound
Verif.Runtime.Hooks.C78_state_left_behind: propext Quot.sound
Verif.Cmd.Shadow.C79_instruments_partial: propext Classical.choice Quot.sound
Verif.Cmd.Shadow.C79_passes_partial: propext Classical.choice Quot.sound
Verif.Cmd.Shadow.C79_exit: none
Verif.Cmd.Shadow.C79_other_spelling: propext Classical.choice Quot.sound
Verif.Cmd.Shadow.C79_alias_loops: propext Classical.choice Quot.sound
Verif.Cmd.Shadow.C79_no_stdin: propext Classical.choice Quot.sound
Verif.Cmd.GoXgo.C80_env: propext Classical.choice Quot.sound
Verif.Cmd.GoXgo.C80_goroot: propext Classical.choice Quot.sound
Verif.Cmd.GoXgo.C80_once: propext Classical.choice Quot.sound
Verif.Cmd.GoXgo.C80_plain: propext Classical.choice Quot.sound
Verif.Cmd.GoXgo.C80_xgo: propext Classical.choice Quot.sound
Verif.Cmd.GoXgo.C80_exec_partial: propext Classical.choice Quot.sound
Verif.Cmd.GoXgo.C80_native: propext Classical.choice Quot.sound
Verif.Cmd.GoXgo.C80_exit: propext
Verif.Cmd.GoXgo.C80_exec_inside_lost: propext Classical.choice Quot.sound
Verif.Cmd.GoXgo.C80_no_stdin: propext Classical.choice Quot.sound
Verif.Cmd.GoXgo.C80_empty_path: propext Classical.choice Quot.sound
Verif.Support.ServePort.C81_port: propext Quot.sound
Verif.Support.ServePort.C81_gives_up: propext Quot.sound
Verif.Support.ServePort.C81_ends: propext Quot.sound
Verif.Support.ServePort.C81_announced_partial: propext
Verif.Support.ServePort.C81_announces: propext
Verif.Support.ServePort.C81_host: propext Classical.choice Quot.sound
Verif.Support.ServePort.C81_announced_stale: propext
Verif.Support.ServePort.C81_announced_untried: propext
Verif.Support.ServePort.C81_page_early: propext
Verif.Support.ServePort.C81_v6_probe: propext Classical.choice Quot.sound
Verif.Cmd.GorootDir.C82_name: propext Classical.choice Quot.sound
Verif.Cmd.GorootDir.C82_length: propext Classical.choice Quot.sound
Verif.Cmd.GorootDir.C82_fresh: propext Classical.choice Quot.sound
Verif.Cmd.GorootDir.C82_again: propext Classical.choice Quot.sound
Verif.Cmd.GorootDir.C82_apart_partial: propext Classical.choice Quot.sound
Verif.Cmd.GorootDir.C82_versions: propext Classical.choice Quot.sound
Verif.Cmd.GorootDir.C82_caches_partial: propext Classical.choice Quot.sound
Verif.Cmd.GorootDir.C82_delete: propext Classical.choice Quot.sound
Verif.Cmd.GorootDir.C82_delete_other: propext Classical.choice Quot.sound
Verif.Cmd.GorootDir.C82_goroot: propext Classical.choice Quot.sound
Verif.Cmd.GorootDir.C82_shared: propext Classical.choice Quot.sound
Verif.Cmd.GorootDir.C82_mistaken: propext Classical.choice Quot.sound
Verif.Cmd.TestConfig.C83_accepts: propext Classical.choice Quot.sound
Verif.Cmd.TestConfig.C83_unknown_keys: propext Classical.choice Quot.sound
Verif.Cmd.TestConfig.C83_settings: propext Classical.choice Quot.sound
Verif.Cmd.TestConfig.C83_go_setting: propext Classical.choice Quot.sound
Verif.Cmd.TestConfig.C83_coverage_setting: propext Classical.choice Quot.sound
Verif.Cmd.TestConfig.C83_env_partial: propext Classical.choice Quot.sound
Verif.Cmd.TestConfig.C83_env_values: propext Classical.choice Quot.sound
Verif.Cmd.TestConfig.C83_env_large: propext Classical.choice Quot.sound
Verif.Cmd.TestConfig.C83_env_nested: propext Classical.choice Quot.sound
Verif.Cmd.TestConfig.C83_env_ambiguous: propext Classical.choice Quot.sound
Verif.Cmd.TestConfig.C83_go_range: propext Classical.choice Quot.sound
Verif.Cmd.TestConfig.C83_merge: propext Classical.choice Quot.sound
Verif.Cmd.TestConfig.C83_mock_rules: propext Classical.choice Quot.sound
Verif.Cmd.TestConfig.C83_supports: propext Classical.choice Quot.sound
Verif.Cmd.TestConfig.C83_coverage: propext Classical.choice Quot.sound
Verif.Cmd.TestConfig.C83_file: propext Classical.choice Quot.sound
Verif.Cmd.TestConfig.C83_command: propext Classical.choice Quot.sound
Verif.Cmd.TestConfig.C83_env_order: propext Classical.choice Quot.sound
Verif.Cmd.TestConfig.C83_text_false_is_true: propext Classical.choice Quot.sound
Verif.Cmd.TestConfig.C83_bad_bound: propext Classical.choice Quot.sound
Verif.Cmd.TestConfig.C83_coverage_true: propext Classical.choice Quot.sound
Verif.Cmd.RunOutput.C84_lines: propext Quot.sound
Verif.Cmd.RunOutput.C84_line: propext
Verif.Cmd.RunOutput.C84_rests: propext Classical.choice Quot.sound
Verif.Cmd.RunOutput.C84_ends: propext Quot.sound
Verif.Cmd.RunOutput.C84_last: propext Quot.sound
Verif.Cmd.RunOutput.C84_hang: propext Quot.sound
Verif.Cmd.RunOutput.C84_hang_witness: propext Classical.choice Quot.sound
Verif.Cmd.RunOutput.C84_rejected: propext Quot.sound
Verif.Cmd.RunOutput.C84_open: propext Quot.sound
Verif.Cmd.RunOutput.C84_err_after_end: propext Classical.choice Quot.sound
Verif.Cmd.RunOutput.C84_err_long: propext Classical.choice Quot.sound
Verif.Cmd.RunOutput.C84_end_first: propext Classical.choice Quot.sound
Verif.Cmd.RunOutput.C84_session: propext Quot.sound
Verif.Cmd.RunOutput.C84_polled: propext Classical.choice Quot.sound
Verif.Support.CmdLine.C85_pasted_partial: propext Classical.choice Quot.sound
Verif.Support.CmdLine.C85_quote_iff: propext Classical.choice Quot.sound
Verif.Support.CmdLine.C85_not_quoted: propext Classical.choice Quot.sound
Verif.Support.CmdLine.C85_env_newline: propext Classical.choice Quot.sound
Verif.Support.CmdLine.C85_program_blank: propext Classical.choice Quot.sound
Verif.Support.CmdLine.C85_env: propext Quot.sound
Verif.Support.CmdLine.C85_run: propext Classical.choice Quot.sound
Verif.Support.CmdLine.C85_output: propext Classical.choice Quot.sound
Verif.Support.CmdLine.C85_output_error: propext Classical.choice Quot.sound
Verif.Support.CmdLine.C85_run_ignore: propext Classical.choice Quot.sound
Verif.Support.CmdLine.C85_crlf: propext Classical.choice Quot.sound
Verif.Cmd.CovMerge.C86_merge: propext Classical.choice Quot.sound
Verif.Cmd.CovMerge.C86_missing: propext Classical.choice Quot.sound
Verif.Cmd.CovMerge.C86_covered: propext Quot.sound
Verif.Cmd.CovMerge.C86_step_by_step: propext Classical.choice Quot.sound
Verif.Cmd.CovMerge.C86_compact: propext Classical.choice Quot.sound
Verif.Cmd.CovMerge.C86_compact_again: propext Classical.choice Quot.sound
Verif.Cmd.CovMerge.C86_exclude_other: propext Classical.choice Quot.sound
Verif.Cmd.CovMerge.C86_mode_line: propext Classical.choice Quot.sound
Verif.Cmd.CovMerge.C86_unknown: propext Classical.choice Quot.sound
Verif.Cmd.CovMerge.C86_serve: propext Classical.choice Quot.sound
Verif.Cmd.CovMerge.C86_serve_panic: propext Classical.choice Quot.sound
Verif.Cmd.ToolExec.C87_exec_tool: propext Classical.choice Quot.sound
Verif.Cmd.ToolExec.C87_exec_compile: propext Classical.choice Quot.sound
Verif.Cmd.ToolExec.C87_exec_lost: propext Classical.choice Quot.sound
Verif.Cmd.ToolExec.C87_exit: propext Quot.sound
Verif.Cmd.ToolExec.C87_insert_other: propext Classical.choice Quot.sound
Verif.Cmd.ToolExec.C87_insert_partial: propext Classical.choice Quot.sound
Verif.Cmd.ToolExec.C87_insert_fails: propext Classical.choice Quot.sound
Verif.Cmd.ToolExec.C87_shallow: propext Classical.choice Quot.sound
Verif.Cmd.ToolExec.C87_func: propext Classical.choice Quot.sound
Verif.Cmd.ToolExec.C87_trapped: propext Classical.choice Quot.sound
Verif.Cmd.ToolExec.C87_lines: propext Classical.choice Quot.sound
Verif.Cmd.ToolExec.C87_parallel_partial: propext Classical.choice Quot.sound
Verif.Cmd.ToolExec.C87_race: propext Classical.choice Quot.sound
Verif.Cmd.ToolExec.C87_help: propext Classical.choice Quot.sound
Verif.Instrument.SourceLines.C88_lines_partial: propext Classical.choice Quot.sound
Verif.Instrument.SourceLines.C88_types: propext Classical.choice Quot.sound
Verif.Instrument.SourceLines.C88_ampersand: propext Classical.choice Quot.sound
Verif.Instrument.RegRead.C89_registered: propext Classical.choice Quot.sound
Verif.Instrument.RegRead.C89_trapped: propext Classical.choice Quot.sound
Verif.Instrument.RegRead.C89_variable: propext Classical.choice Quot.sound
Verif.Instrument.RegRead.C89_init: propext Classical.choice Quot.sound
Verif.Runtime.Defer.C90_behaviour: propext Quot.sound
Verif.Runtime.Defer.C90_transparent: propext Quot.sound
Verif.Runtime.Defer.C90_replaced: propext Quot.sound
Verif.Runtime.Defer.C90_log: propext Quot.sound
Verif.Runtime.Defer.C90_panicked_partial: propext Quot.sound
Verif.Runtime.Defer.C90_panicked_counterexample: propext
Verif.Runtime.Defer.C90_language: propext
Verif.Instrument.InitOrder.C91_order_partial: propext Classical.choice Quot.sound
Verif.Instrument.InitOrder.C91_order_counterexample: propext Classical.choice Quot.sound
Verif.Instrument.InitOrder.C91_no_loop: propext Quot.sound
Verif.Instrument.InitOrder.C91_inits: propext Classical.choice Quot.sound
Verif.Instrument.InitOrder.C91_links: propext Classical.choice Quot.sound
Verif.Instrument.InitOrder.C91_links_only: propext Classical.choice Quot.sound
Verif.Cmd.CovView.C92_parse: propext Classical.choice Quot.sound
Verif.Cmd.CovView.C92_ids: propext Classical.choice Quot.sound
Verif.Cmd.CovView.C92_first: propext Classical.choice Quot.sound
Verif.Cmd.CovView.C92_stable: propext Classical.choice Quot.sound
Verif.Cmd.CovView.C92_line: propext Classical.choice Quot.sound
Verif.Cmd.CovView.C92_covered: propext Classical.choice Quot.sound
Verif.Cmd.CovView.C92_changes: propext Classical.choice Quot.sound
Verif.Cmd.CovView.C92_old_text: propext Classical.choice Quot.sound
Verif.Cmd.CovView.C92_git_partial: propext Quot.sound
Verif.Cmd.CovView.C92_changed_partial: propext Classical.choice Quot.sound
Verif.Cmd.CovView.C92_summary: propext Classical.choice Quot.sound
Verif.Cmd.CovView.C92_count_unique: propext Quot.sound
Verif.Cmd.CovView.C92_absent: propext Classical.choice Quot.sound
Verif.Cmd.CovView.C92_else_counterexample: propext Classical.choice Quot.sound
Verif.Cmd.CovView.C92_total_counterexample: propext Classical.choice Quot.sound
Verif.Cmd.CovView.C92_renamed_counterexample: propext
Verif.Cmd.CovView.C92_subdir_counterexample: propext
Verif.Cmd.CovView.C92_prefix_counterexample: propext Quot.sound
Verif.Cmd.CovView.C92_convert: propext Classical.choice Quot.sound
Verif.Cmd.CovView.C92_overflow: propext Classical.choice Quot.sound
Verif.Instrument.GenFile.C93_names: propext Classical.choice Quot.sound
Verif.Instrument.GenFile.C93_names_counterexample: propext Classical.choice Quot.sound
Verif.Instrument.GenFile.C93_position: propext Classical.choice Quot.sound
Verif.Instrument.GenFile.C93_bom_counterexample: propext Classical.choice Quot.sound
Verif.Instrument.GenFile.C93_reads_partial: propext Classical.choice Quot.sound
Verif.Instrument.GenFile.C93_parallel_counterexample: propext Classical.choice Quot.sound
Verif.Instrument.GenFile.C93_compiled: propext Classical.choice Quot.sound
Verif.Support.GetGo.C94_names: propext Classical.choice Quot.sound
Verif.Support.GetGo.C94_inside: propext Classical.choice Quot.sound
Verif.Support.GetGo.C94_unzip: propext Classical.choice Quot.sound
Verif.Support.GetGo.C94_list: propext Classical.choice Quot.sound
Verif.Support.GetGo.C94_spelling: propext Classical.choice Quot.sound
Verif.Support.GetGo.C94_install_partial: propext Classical.choice Quot.sound
Verif.Support.GetGo.C94_kept: propext Classical.choice Quot.sound
Verif.Support.GetGo.C94_unlisted: propext Classical.choice Quot.sound
Verif.Support.GetGo.C94_platform_counterexample: propext Classical.choice Quot.sound
Verif.Support.GetGo.C94_page: propext Classical.choice Quot.sound
Verif.Runtime.TestTrace.C95_file_partial: propext Classical.choice Quot.sound
Verif.Runtime.TestTrace.C95_place: propext Classical.choice Quot.sound
Verif.Runtime.TestTrace.C95_distinct: propext Classical.choice Quot.sound
Verif.Runtime.TestTrace.C95_failed: propext Classical.choice Quot.sound
Verif.Runtime.TestTrace.C95_only: propext Classical.choice Quot.sound
Verif.Runtime.TestTrace.C95_kept: propext Classical.choice Quot.sound
Verif.Runtime.TestTrace.C95_sub: propext Classical.choice Quot.sound
Verif.Runtime.TestTrace.C95_trace: propext Classical.choice Quot.sound
Verif.Runtime.TestTrace.C95_inner_lost: propext Classical.choice Quot.sound
Verif.Runtime.TestTrace.C95_testmain_counterexample: propext Classical.choice Quot.sound
Verif.Runtime.TestTrace.C95_packages_counterexample: propext Classical.choice Quot.sound
Verif.Runtime.TestTrace.C95_chdir_counterexample: propext Classical.choice Quot.sound
Verif.Runtime.TestTrace.C95_outside_counterexample: propext Classical.choice Quot.sound
Verif.Cmd.Handoff.C96_runs_partial: propext Classical.choice Quot.sound
Verif.Cmd.Handoff.C96_told_partial: propext Classical.choice Quot.sound
Verif.Cmd.Handoff.C96_compiles: propext Classical.choice Quot.sound
Verif.Cmd.Handoff.C96_unreadable: propext Classical.choice Quot.sound
Verif.Cmd.Handoff.C96_counterexample_overlap: propext Classical.choice Quot.sound
Verif.Cmd.Handoff.C96_counterexample_half_written: propext Classical.choice Quot.sound
Verif.Cmd.Handoff.C96_counterexample_nested: propext Classical.choice Quot.sound
Verif.Cmd.Handoff.C96_counterexample_names: propext Classical.choice Quot.sound
Verif.Runtime.PatchTarget.C97_state: propext Quot.sound
Verif.Runtime.PatchTarget.C97_refused: propext
Verif.Runtime.PatchTarget.C97_quiet: propext Quot.sound
Verif.Runtime.PatchTarget.C97_catches_partial: propext Quot.sound
Verif.Runtime.PatchTarget.C97_only_partial: propext Quot.sound
Verif.Runtime.PatchTarget.C97_others: propext Quot.sound
Verif.Runtime.PatchTarget.C97_interface_runs: propext Quot.sound
Verif.Runtime.PatchTarget.C97_interface_expr: propext Quot.sound
Verif.Runtime.PatchTarget.C97_uncomparable: propext Quot.sound
Verif.Runtime.PatchTarget.C97_instances_wrong: propext
Verif.Runtime.PatchTarget.C97_interface_wrong: propext
Verif.Runtime.PatchTarget.C97_by_name_partial: propext
Verif.Runtime.PatchTarget.C97_by_name_generic: propext Quot.sound
Verif.Runtime.InitPhase.C98_calls_partial: propext Quot.sound
Verif.Runtime.InitPhase.C98_after: propext Classical.choice Quot.sound
Verif.Runtime.InitPhase.C98_trace_after_partial: propext Quot.sound
Verif.Runtime.InitPhase.C98_trace_in_init: propext Quot.sound
Verif.Runtime.InitPhase.C98_trace_once: propext
Verif.Runtime.InitPhase.C98_counterexample_shared: propext
Verif.Runtime.InitPhase.C98_counterexample_end: propext
Verif.Runtime.LooseJson.C99_mode: propext Classical.choice Quot.sound
Verif.Runtime.LooseJson.C99_shown: propext Classical.choice Quot.sound
Verif.Runtime.LooseJson.C99_args: propext Classical.choice Quot.sound
Verif.Runtime.LooseJson.C99_load: propext Classical.choice Quot.sound
Verif.Runtime.LooseJson.C99_own_partial: propext Classical.choice Quot.sound
Verif.Runtime.LooseJson.C99_method_counterexample: propext Classical.choice Quot.sound
Verif.Runtime.LooseJson.C99_goroutine_counterexample: propext Classical.choice Quot.sound
Verif.Runtime.LooseJson.C99_exit_counterexample: propext Classical.choice Quot.sound
Verif.Runtime.LooseJson.C99_error_counterexample: propext Classical.choice Quot.sound
Verif.Runtime.LooseJson.C99_value_counterexample: propext Classical.choice Quot.sound
Verif.Runtime.Mutex.C100_linearizable: propext Classical.choice Quot.sound
Verif.Runtime.Mutex.C100_exclusive: propext
Verif.Runtime.Mutex.C100_whole: propext Classical.choice Quot.sound
Verif.Runtime.Mutex.C100_complete: propext Classical.choice Quot.sound
Verif.Runtime.Mutex.C100_returns: propext Classical.choice Quot.sound
Verif.Runtime.Mutex.C100_atomic: propext Classical.choice Quot.sound
Verif.Runtime.Mutex.C100_moment: propext Classical.choice Quot.sound
Verif.Runtime.Mutex.C100_copy: propext Classical.choice Quot.sound
Verif.Runtime.Mutex.C100_reenter: propext Quot.sound
Verif.Runtime.Mutex.C100_counterexample_reenter: propext Quot.sound
Verif.Runtime.Mutex.C100_counterexample_no_mutex: propext Quot.sound
Verif.Runtime.Mutex.C100_counterexample_var: propext
Verif.Runtime.Mutex.C100_counterexample_torn: propext
Verif.Support.HttpJson.C101_answer_partial: propext Classical.choice Quot.sound
Verif.Support.HttpJson.C101_success_partial: propext Classical.choice Quot.sound
Verif.Support.HttpJson.C101_options: propext Classical.choice Quot.sound
Verif.Support.HttpJson.C101_panic: propext Classical.choice Quot.sound
Verif.Support.HttpJson.C101_error_type: propext Classical.choice Quot.sound
Verif.Support.HttpJson.C101_poll: propext Classical.choice Quot.sound
Verif.Support.HttpJson.C101_destroy: propext Classical.choice Quot.sound
Verif.Support.HttpJson.C101_bad_body: propext Classical.choice Quot.sound
Verif.Support.HttpJson.C101_no_body: propext Classical.choice Quot.sound
Verif.Support.HttpJson.C101_detail: propext Classical.choice Quot.sound
Verif.Support.HttpJson.C101_detail_bad: propext Classical.choice Quot.sound
Verif.Support.HttpJson.C101_detail_race: propext Classical.choice Quot.sound
Verif.Instrument.GoHooks.C102_hooks: propext Classical.choice Quot.sound
Verif.Instrument.GoHooks.C102_again: propext Classical.choice Quot.sound
Verif.Instrument.GoHooks.C102_undo: propext Classical.choice Quot.sound
Verif.Instrument.GoHooks.C102_lines: propext Classical.choice Quot.sound
Verif.Instrument.GoHooks.C102_missing: propext Classical.choice Quot.sound
Verif.Instrument.GoHooks.C102_unsupported: propext Classical.choice Quot.sound
Verif.Cmd.Tool.C103_builtin: propext Classical.choice Quot.sound
Verif.Cmd.Tool.C103_runs_partial: propext Classical.choice Quot.sound
Verif.Cmd.Tool.C103_only: propext Classical.choice Quot.sound
Verif.Cmd.Tool.C103_slash: propext Classical.choice Quot.sound
Verif.Cmd.Tool.C103_itself: propext Classical.choice Quot.sound
Verif.Cmd.Tool.C103_by_name: propext Classical.choice Quot.sound
Verif.Cmd.Tool.C103_other_program: propext Classical.choice Quot.sound
Verif.Instrument.GoCmd.C104_edits: propext Classical.choice Quot.sound
Verif.Instrument.GoCmd.C104_again: propext Classical.choice Quot.sound
Verif.Instrument.GoCmd.C104_undo: propext Classical.choice Quot.sound
Verif.Instrument.GoCmd.C104_lines: propext Classical.choice Quot.sound
Verif.Instrument.GoCmd.C104_missing: propext Classical.choice Quot.sound
Verif.Instrument.GoCmd.C104_unsupported: propext Classical.choice Quot.sound
Verif.Instrument.GoComp.C105_noder: propext Classical.choice Quot.sound
Verif.Instrument.GoComp.C105_builtin: propext Classical.choice Quot.sound
Verif.Instrument.GoComp.C105_missing: propext Classical.choice Quot.sound
Verif.Instrument.GoComp.C105_unsupported: propext Classical.choice Quot.sound
Verif.Instrument.GoComp.C105_nodes: propext Classical.choice Quot.sound
Verif.Instrument.GoDebug.C106_second: propext Classical.choice Quot.sound
Verif.Instrument.GoDebug.C106_plain: propext Classical.choice Quot.sound
Verif.Instrument.GoDebug.C106_shell: propext Classical.choice Quot.sound
Verif.Instrument.GoDebug.C106_exec_partial: propext Classical.choice Quot.sound
Verif.Instrument.GoDebug.C106_lost: propext Classical.choice Quot.sound
Verif.Instrument.GoDebug.C106_missing: propext Classical.choice Quot.sound
Verif.Instrument.GoDebug.C106_unsupported: propext Classical.choice Quot.sound
Verif.Cmd.Upgrade.C107_install: propext Classical.choice Quot.sound
Verif.Cmd.Upgrade.C107_message: propext Classical.choice Quot.sound
Verif.Cmd.Upgrade.C107_latest_partial: propext Classical.choice Quot.sound
Verif.Cmd.Upgrade.C107_shadowed: propext Classical.choice Quot.sound
Verif.Cmd.Upgrade.C107_first: propext Classical.choice Quot.sound
Verif.Cmd.Upgrade.C107_broken: propext Classical.choice Quot.sound
Verif.Cmd.Upgrade.C107_ignored: propext Classical.choice Quot.sound
Verif.Cmd.Upgrade.C107_crash: propext Classical.choice Quot.sound
Verif.Cmd.CovProfile.C108_own_partial: propext Classical.choice Quot.sound
Verif.Cmd.CovProfile.C108_shared: propext Classical.choice Quot.sound
Verif.Cmd.CovProfile.C108_clash: propext Classical.choice Quot.sound
Verif.Cmd.CovProfile.C108_below_partial: propext Classical.choice Quot.sound
Verif.Cmd.CovProfile.C108_escape: propext Classical.choice Quot.sound
Verif.Cmd.CovProfile.C108_nested: propext Classical.choice Quot.sound
Verif.Cmd.ExplorerDebug.C109_only_cases: propext
Verif.Cmd.ExplorerDebug.C109_debugged: propext Classical.choice Quot.sound
Verif.Cmd.ExplorerDebug.C109_same_partial: propext Classical.choice Quot.sound
Verif.Cmd.ExplorerDebug.C109_flags_lost: propext Classical.choice Quot.sound
Verif.Cmd.ExplorerDebug.C109_env: propext Classical.choice Quot.sound
Verif.Cmd.ExplorerDebug.C109_where: propext Classical.choice Quot.sound
Verif.Cmd.ExplorerDebug.C109_binary: propext Classical.choice Quot.sound
Verif.Cmd.ExplorerDebug.C109_command: propext Classical.choice Quot.sound
Verif.Cmd.ExplorerDebug.C109_effects: propext Classical.choice Quot.sound
Verif.Cmd.ExplorerDebug.C109_once: propext Classical.choice Quot.sound
Verif.Cmd.CaseTrace.C110_place: propext Classical.choice Quot.sound
Verif.Cmd.CaseTrace.C110_own: propext Classical.choice Quot.sound
Verif.Cmd.CaseTrace.C110_latest_partial: propext Classical.choice Quot.sound
Verif.Cmd.CaseTrace.C110_stale: propext Classical.choice Quot.sound
Verif.Cmd.CaseTrace.C110_clash: propext Classical.choice Quot.sound
Verif.Cmd.CaseTrace.C110_reversed: propext Classical.choice Quot.sound
Verif.Cmd.CaseTrace.Records.C110_records: propext Classical.choice Quot.sound
Verif.Cmd.CaseTrace.Records.C110_no_trace: propext Classical.choice Quot.sound
