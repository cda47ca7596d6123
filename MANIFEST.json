{
 "claims": [
  {
   "property": "C01",
   "status": "proved",
   "theorems": [
    "Verif.C01_lookup_precedence",
    "Verif.C01_lookup_exact"
   ],
   "note": "exact characterisation of lookup results, all inputs"
  },
  {
   "property": "C02",
   "status": "proved",
   "theorems": [
    "Verif.C02_lookup_fails_iff",
    "Verif.C02_no_default_keyword"
   ],
   "note": ""
  },
  {
   "property": "C03",
   "status": "proved",
   "theorems": [
    "Verif.C03_first_source_wins",
    "Verif.C03_succeeds_iff"
   ],
   "note": "any list of sources, any spec plugins; side condition (python dicts) discharged for the rules spec"
  },
  {
   "property": "C04",
   "status": "proved",
   "theorems": [
    "Verif.C04_lookup_order_independent",
    "Verif.C04_ambiguous_order_matters"
   ],
   "note": "with the counter-example showing the side condition is needed"
  },
  {
   "property": "C05",
   "status": "proved",
   "theorems": [
    "Verif.C05_db_keys",
    "Verif.C05_db_keys_complete",
    "Verif.C05_has_rule_complete",
    "Verif.C05_has_rule_iff",
    "Verif.C05_listed_key_may_be_empty"
   ],
   "note": "source and database level"
  },
  {
   "property": "C06",
   "status": "proved",
   "theorems": [
    "Verif.C06_expanded_structure"
   ],
   "note": ""
  },
  {
   "property": "C07",
   "status": "proved",
   "theorems": [
    "Verif.C07_idempotent",
    "Verif.C07_fixed_points"
   ],
   "note": ""
  },
  {
   "property": "C08",
   "status": "proved",
   "theorems": [
    "Verif.C08_shorthands",
    "Verif.C08_shorthands_version",
    "Verif.C08_shorthands_installer",
    "Verif.C08_any_os",
    "Verif.C08_depends_shorthands"
   ],
   "note": ""
  },
  {
   "property": "C09",
   "status": "proved",
   "theorems": [
    "Verif.C09_per_key",
    "Verif.C09_per_os",
    "Verif.C09_per_version",
    "Verif.C09_per_installer",
    "Verif.C09_fails_iff",
    "Verif.C09_empty_file"
   ],
   "note": "per key, os, version, installer, plus failure condition"
  },
  {
   "property": "C10",
   "status": "proved",
   "theorems": [
    "Verif.C10_verify_iff_valid",
    "Verif.C10_only_valueError",
    "Verif.C10_installer_dict"
   ],
   "note": ""
  },
  {
   "property": "C11",
   "status": "proved",
   "theorems": [
    "Verif.C11_identifier_iff",
    "Verif.C11_trailing_newline"
   ],
   "note": "including the trailing-newline deviation"
  },
  {
   "property": "C12",
   "status": "partial",
   "theorems": [
    "Verif.C12_flag_ignored",
    "Verif.C12_flag_honoured_below_partial"
   ],
   "note": "claim refuted at the top level (flag dropped in rules_dict.py:102); proved for the levels below"
  },
  {
   "property": "C13",
   "status": "proved",
   "theorems": [
    "Verif.C13_any_os_shorthand_rejected"
   ],
   "note": ""
  },
  {
   "property": "C14",
   "status": "proved",
   "theorems": [
    "Verif.C14_compaction_preserves_lookup"
   ],
   "note": "for rules in the normal form established by loading (loaded_is_good)"
  },
  {
   "property": "C15",
   "status": "partial",
   "theorems": [
    "Verif.C15_second_round_shrinks",
    "Verif.C15_fixed_point_partial",
    "Verif.C15_second_round_is_fixed"
   ],
   "note": "claim refuted (C15_second_round_shrinks); proved: fixed point when no version entry duplicates any_version, and the second round is always a fixed point"
  },
  {
   "property": "C16",
   "status": "proved",
   "theorems": [
    "Verif.C16_fails_iff",
    "Verif.C16_keeps_rules",
    "Verif.C16_file_succeeds_iff"
   ],
   "note": ""
  },
  {
   "property": "C17",
   "status": "partial",
   "theorems": [
    "Verif.C17_merged_lookup_partial",
    "Verif.C17_merge_succeeds",
    "Verif.C17_merge_crashes",
    "Verif.C17_in_steps",
    "Verif.C17_equivalent_rules",
    "Verif.C17_merge_succeeds_iff",
    "Verif.C17_merge_error"
   ],
   "note": "the claim is false when the merge crashes (C17_merge_crashes); proved for every successful merge, with the exact condition of success (C17_merge_succeeds_iff)"
  },
  {
   "property": "C18",
   "status": "proved",
   "theorems": [
    "Verif.C18_merged_known_os_and_installers",
    "Verif.C18_merged_is_merge_input",
    "Verif.C18_no_empty_key"
   ],
   "note": ""
  },
  {
   "property": "C19",
   "status": "proved",
   "theorems": [
    "Verif.C19_update_memory",
    "Verif.C19_update_cache",
    "Verif.C19_other_files_untouched"
   ],
   "note": "ordinary exceptions; KeyboardInterrupt and SystemExit end the update, see C79; that the message about a failed source can be formed is assumed, see C115 for when it cannot"
  },
  {
   "property": "C20",
   "status": "proved",
   "theorems": [
    "Verif.C20_raises_iff",
    "Verif.C20_first_failure",
    "Verif.C20_no_failure"
   ],
   "note": ""
  },
  {
   "property": "C21",
   "status": "proved",
   "theorems": [
    "Verif.C21_round_trip",
    "Verif.C21_round_trip_db"
   ],
   "note": "per source and for the whole database; no KeyboardInterrupt or SystemExit during the update"
  },
  {
   "property": "C22",
   "status": "partial",
   "theorems": [
    "Verif.C22_crash_contents_partial",
    "Verif.C22_at_most_one_damaged_partial",
    "Verif.C22_window_of_loss",
    "Verif.C22_recovery",
    "Verif.C22_bytes",
    "Verif.C22_crash_at_any_byte"
   ],
   "note": "claim refuted (C22_window_of_loss); proved: contents at every crash point, at most one damaged file, recovery by the next update; C22_bytes, C22_crash_at_any_byte: the same for crashes at any byte, whatever the pieces in which files are written"
  },
  {
   "property": "C23",
   "status": "proved",
   "theorems": [
    "Verif.C23_data_always_verified",
    "Verif.C23_rules_data",
    "Verif.C23_bad_cache_rejected",
    "Verif.C23_opened_database",
    "Verif.C23_opened_then_loaded"
   ],
   "note": "invariant over every history of database operations"
  },
  {
   "property": "C24",
   "status": "proved",
   "theorems": [
    "Verif.C24_unique_ids",
    "Verif.C24_duplicates_refused",
    "Verif.C24_opened_database"
   ],
   "note": ""
  },
  {
   "property": "C25",
   "status": "partial",
   "theorems": [
    "Verif.C25_outdated_check_crashes",
    "Verif.C25_clear_crashes",
    "Verif.C25_missing_is_outdated_partial"
   ],
   "note": "claim refuted; only the missing-file case works"
  },
  {
   "property": "C26",
   "status": "proved",
   "theorems": [
    "Verif.C26_bounded_retries",
    "Verif.C26_recovers",
    "Verif.C26_gives_up"
   ],
   "note": "exact characterisation for every response sequence and retry count"
  },
  {
   "property": "C27",
   "status": "proved",
   "theorems": [
    "Verif.C27_all_keys_of_sources",
    "Verif.C27_partition",
    "Verif.C27_exactly_once"
   ],
   "note": ""
  },
  {
   "property": "C28",
   "status": "partial",
   "theorems": [
    "Verif.C28_installer_choice",
    "Verif.C28_first_core_installer_partial",
    "Verif.C28_first_additional_never_used",
    "Verif.C28_last_additional_witness"
   ],
   "note": "claim refuted for additional installers: the last one with a rule is used, not the first; exact choice proved"
  },
  {
   "property": "C29",
   "status": "proved",
   "theorems": [
    "Verif.C29_install_from"
   ],
   "note": ""
  },
  {
   "property": "C30",
   "status": "partial",
   "theorems": [
    "Verif.C30_raises_exactly",
    "Verif.C30_keys_independent_partial",
    "Verif.C30_raises_iff",
    "Verif.C30_one_failure_aborts_all"
   ],
   "note": "claim refuted: a lookup raising something else than LookupError aborts the whole request; proved for requests that return"
  },
  {
   "property": "C31",
   "status": "proved",
   "theorems": [
    "Verif.C31_grouping",
    "Verif.C31_grouping_unique",
    "Verif.C31_order_kept",
    "Verif.C31_planned_groups"
   ],
   "note": "existence and uniqueness of the grouping"
  },
  {
   "property": "C32",
   "status": "proved",
   "theorems": [
    "Verif.C32_dry_run_flag",
    "Verif.C32_simulate_executes_nothing",
    "Verif.C32_simulate_changes_nothing",
    "Verif.C32_simulate_may_fix"
   ],
   "note": "no command is executed; the machine is unchanged unless prerequisites are fixed (C32_simulate_may_fix)"
  },
  {
   "property": "C33",
   "status": "proved",
   "theorems": [
    "Verif.C33_without_flag",
    "Verif.C33_stop_at_first_failure"
   ],
   "note": ""
  },
  {
   "property": "C34",
   "status": "partial",
   "theorems": [
    "Verif.C34_continue_flag_partial",
    "Verif.C34_continue_runs_everything_partial",
    "Verif.C34_failures_reported",
    "Verif.C34_unstartable_command_aborts",
    "Verif.C34_markup_in_command_aborts",
    "Verif.C34_compose_error_crashes",
    "Verif.C34_returns_if_plugins_behave_partial"
   ],
   "note": "claim refuted when a command cannot be started, contains markup, or cannot be composed; proved for runs that return, and that runs with well behaved plugins return"
  },
  {
   "property": "C35",
   "status": "proved",
   "theorems": [
    "Verif.C35_no_errors_means_installed",
    "Verif.C35_plugin_said_installed",
    "Verif.C35_installed_at_the_end"
   ],
   "note": ""
  },
  {
   "property": "C36",
   "status": "proved",
   "theorems": [
    "Verif.C36_only_uninstalled_planned"
   ],
   "note": ""
  },
  {
   "property": "C37",
   "status": "partial",
   "theorems": [
    "Verif.C37_resolve_errors_reported_partial",
    "Verif.C37_failed_check_is_silent_success",
    "Verif.C37_check_failures_left_out",
    "Verif.C37_silent_success_witness",
    "Verif.C37_continuing_witness"
   ],
   "note": "claim refuted: a failed installed-check is a silent success; resolve and command failures are reported"
  },
  {
   "property": "C38",
   "status": "partial",
   "theorems": [
    "Verif.C38_reinstall_flag_refuted",
    "Verif.C38_reinstall_never_works",
    "Verif.C38_reinstall_witness"
   ],
   "note": "claim refuted: reinstall always crashes; proved: it never plans or executes a command"
  },
  {
   "property": "C39",
   "status": "proved",
   "theorems": [
    "Verif.C39_fake_end_to_end"
   ],
   "note": "touch must work as on a file system (hypothesis TouchWorks), no @ in file names, fake is loaded with a directory; otherwise arbitrary machine, keys and rules"
  },
  {
   "property": "C40",
   "status": "partial",
   "theorems": [
    "Verif.C40_always_reports_an_error",
    "Verif.C40_no_command_error_partial",
    "Verif.C40_witness"
   ],
   "note": "claim refuted: the installed-check of these plugins always says no, so every real installation is reported as failed; proved: no command failure is reported if all commands succeed"
  },
  {
   "property": "C41",
   "status": "proved",
   "theorems": [
    "Verif.C41_remove_duplicates"
   ],
   "note": ""
  },
  {
   "property": "C42",
   "status": "proved",
   "theorems": [
    "Verif.C42_installers",
    "Verif.C42_disjoint",
    "Verif.C42_succeeds_iff",
    "Verif.C42_same_name_witness",
    "Verif.C42_null_core_installer",
    "Verif.C42_null_options"
   ],
   "note": "installers are told apart by identity, as loaded; two installers of the same name are possible through a fake name (C42_same_name_witness); null entries for core installers or options raise (C42_null_core_installer, C42_null_options)"
  },
  {
   "property": "C43",
   "status": "partial",
   "theorems": [
    "Verif.C43_disabled_builtins",
    "Verif.C43_loaded",
    "Verif.C43_succeeds_iff_partial",
    "Verif.C43_import_failure_refuted",
    "Verif.C43_constructor_failure_refuted"
   ],
   "note": "claim refuted for plugins whose import or constructor raises: these abort loading even if disabled; proved for all others"
  },
  {
   "property": "C44",
   "status": "proved",
   "theorems": [
    "Verif.C44_detects_iff",
    "Verif.C44_raising_plugin",
    "Verif.C44_result_detects",
    "Verif.C44_sets_current",
    "Verif.C44_most_specific",
    "Verif.C44_nothing_more_specific",
    "Verif.C44_unrelated_depends_on_order"
   ],
   "note": "no plugin detection raises (hypothesis); with unrelated detecting plugins the choice depends on the order (C44_unrelated_depends_on_order)"
  },
  {
   "property": "C45",
   "status": "proved",
   "theorems": [
    "Verif.C45_override_version",
    "Verif.C45_override_detects_version",
    "Verif.C45_refused",
    "Verif.C45_lookup_os",
    "Verif.C45_setup_override",
    "Verif.C45_setup_detects",
    "Verif.C45_setup_fails"
   ],
   "note": ""
  },
  {
   "property": "C46",
   "status": "proved",
   "theorems": [
    "Verif.C46_follows_table",
    "Verif.C46_strict_total_order",
    "Verif.C46_builtin_tables"
   ],
   "note": ""
  },
  {
   "property": "C47",
   "status": "partial",
   "theorems": [
    "Verif.C47_tuples_partial",
    "Verif.C47_first_and_names",
    "Verif.C47_builtin",
    "Verif.C47_unknown_version_accepted"
   ],
   "note": "claim refuted for unknown versions, which do not raise (C47_unknown_version_accepted); proved: shape of the tuples for every version"
  },
  {
   "property": "C48",
   "status": "proved",
   "theorems": [
    "Verif.C48_merged_layers",
    "Verif.C48_loaded_config",
    "Verif.C48_command_line_wins",
    "Verif.C48_loading_succeeds",
    "Verif.C48_declared_default",
    "Verif.C48_defaults_fit"
   ],
   "note": "for every description built by add, merged layers and load_config; defaults of merging dict options must be dicts (holds for xylem, xylem_defaults)"
  },
  {
   "property": "C49",
   "status": "proved",
   "theorems": [
    "Verif.C49_associative",
    "Verif.C49_associative_left",
    "Verif.C49_unset_identity",
    "Verif.C49_idempotent"
   ],
   "note": "equality of options; dict values up to order of items"
  },
  {
   "property": "C50",
   "status": "proved",
   "theorems": [
    "Verif.C50_accepted_values_verify",
    "Verif.C50_verification",
    "Verif.C50_reading",
    "Verif.C50_values_kept",
    "Verif.C50_null_is_unset",
    "Verif.C50_command_line_values",
    "Verif.C50_values_read"
   ],
   "note": "from files and from the command line; key types must not be merging dicts (not hashable)"
  },
  {
   "property": "C51",
   "status": "partial",
   "theorems": [
    "Verif.C51_every_option",
    "Verif.C51_missing_is_unset",
    "Verif.C51_every_option_with_defaults",
    "Verif.C51_no_other_keys",
    "Verif.C51_unknown_keys_ignored",
    "Verif.C51_errors_partial",
    "Verif.C51_null_group_refuted",
    "Verif.C51_null_group_witness",
    "Verif.C51_empty_file",
    "Verif.C51_bad_files"
   ],
   "note": "claim refuted for groups with a null value (AttributeError); everything else proved"
  },
  {
   "property": "C52",
   "status": "partial",
   "theorems": [
    "Verif.C52_names_distinct",
    "Verif.C52_keys_distinct",
    "Verif.C52_add",
    "Verif.C52_arguments_refuted",
    "Verif.C52_arguments_partial",
    "Verif.C52_xylem_description"
   ],
   "note": "claim refuted for command line arguments (duplicate is added before the error); names and keys proved for every history, arguments if no add raised"
  },
  {
   "property": "C53",
   "status": "proved",
   "theorems": [
    "Verif.C53_config_directories",
    "Verif.C53_cache_and_sources",
    "Verif.C53_sources_beside_config",
    "Verif.C53_effective_directories",
    "Verif.C53_processed_config"
   ],
   "note": ""
  },
  {
   "property": "C54",
   "status": "proved",
   "theorems": [
    "Verif.C54_name",
    "Verif.C54_name_version",
    "Verif.C54_name_features",
    "Verif.C54_name_version_features",
    "Verif.C54_exact",
    "Verif.C54_effective_override"
   ],
   "note": "white space and separators are arbitrary predicates/positions"
  },
  {
   "property": "C55",
   "status": "proved",
   "theorems": [
    "Verif.C55_mangling_inverse",
    "Verif.C55_mangling_form",
    "Verif.C55_split_group",
    "Verif.C55_no_group",
    "Verif.C55_dashdash"
   ],
   "note": ""
  },
  {
   "property": "C56",
   "status": "proved",
   "theorems": [
    "Verif.C56_elevated_iff_needed",
    "Verif.C56_idempotent",
    "Verif.C56_empty_command_crashes",
    "Verif.C56_as_root_option",
    "Verif.C56_plugin_commands"
   ],
   "note": "commands must not be empty (an empty one raises IndexError, shown); the option default and the commands of the package manager plugins included"
  },
  {
   "property": "C57",
   "status": "partial",
   "theorems": [
    "Verif.C57_sanitized_shown",
    "Verif.C57_sanitized_reproduced_partial",
    "Verif.C57_no_color_drops_marks",
    "Verif.C57_placeholder",
    "Verif.C57_braced_placeholder",
    "Verif.C57_malformed",
    "Verif.C57_bold_text"
   ],
   "note": "claim refuted for braces (doubled), for --no-color (marks dropped) and for unsanitised @ (KeyError); exact behaviour proved"
  },
  {
   "property": "C58",
   "status": "partial",
   "theorems": [
    "Verif.C58_opened_database_partial",
    "Verif.C58_source_files_partial",
    "Verif.C58_only_yaml_files",
    "Verif.C58_hidden_files_are_read",
    "Verif.C58_dot_directory_reads_nothing"
   ],
   "note": "claim refuted (hidden files are read; dot directories are not); exact behaviour proved"
  },
  {
   "property": "C59",
   "status": "proved",
   "theorems": [
    "Verif.C59_rules_arguments",
    "Verif.C59_accepts_iff",
    "Verif.C59_single_description",
    "Verif.C59_one_source_per_description",
    "Verif.C59_errors"
   ],
   "note": ""
  },
  {
   "property": "C60",
   "status": "partial",
   "theorems": [
    "Verif.C60_own_exceptions",
    "Verif.C60_status_zero",
    "Verif.C60_xylem_error_exits_one",
    "Verif.C60_setup_errors_refuted",
    "Verif.C60_resolve_status",
    "Verif.C60_install_status",
    "Verif.C60_silent_success"
   ],
   "note": "refuted for errors while commands or the config are set up, which end in a traceback (C60_setup_errors_refuted; the status is still 1), and status 0 of install does not imply that everything is installed (C60_silent_success, see C37); status proved exactly in all other cases"
  },
  {
   "property": "C61",
   "status": "partial",
   "theorems": [
    "Verif.C61_update_check",
    "Verif.C61_continues_iff",
    "Verif.C61_otherwise_prerequisite_error_partial",
    "Verif.C61_general_check",
    "Verif.C61_fix_crashes",
    "Verif.C61_present_passes",
    "Verif.C61_fake_fix"
   ],
   "note": "claim refuted for apt, homebrew, macports and pip with fixing (TypeError); proved for arbitrary plugins up to exceptions raised by the plugin"
  },
  {
   "property": "C62",
   "status": "proved",
   "theorems": [
    "Verif.C62_pip_filter",
    "Verif.C62_pip_installed"
   ],
   "note": ""
  },
  {
   "property": "C63",
   "status": "proved",
   "theorems": [
    "Verif.C63_root_cause_first",
    "Verif.C63_raise_from_keeps_cause"
   ],
   "note": "finite cause chains; per-exception text is a parameter"
  },
  {
   "property": "C64",
   "status": "partial",
   "theorems": [
    "Verif.C64_dry_run_is_ignored",
    "Verif.C64_dry_run_writes",
    "Verif.C64_touches_only_cache_files_partial",
    "Verif.C64_ensure_cache_dir"
   ],
   "note": "claim refuted: dry_run is ignored; proved: only cache files of the sources are touched"
  },
  {
   "property": "C65",
   "status": "partial",
   "theorems": [
    "Verif.C65_uncompacted_lookup_crashes",
    "Verif.C65_compact_lookup_partial"
   ],
   "note": "claim refuted for compact=False (always crashes); proved for compact=True"
  },
  {
   "property": "C66",
   "status": "partial",
   "theorems": [
    "Verif.C66_malformed_is_typeError",
    "Verif.C66_witness"
   ],
   "note": "claim refuted: TypeError instead of SpecParsingError, for every malformed dict"
  },
  {
   "property": "C67",
   "status": "partial",
   "theorems": [
    "Verif.C67_equality_partial",
    "Verif.C67_equivalence_partial",
    "Verif.C67_hash_always_raises",
    "Verif.C67_hash_iff",
    "Verif.C67_resolved_unhashable"
   ],
   "note": "hash part refuted (always raises); equality proved, also to be an equivalence"
  },
  {
   "property": "C68",
   "status": "proved",
   "theorems": [
    "Verif.C68_one_resolution_per_package",
    "Verif.C68_depends"
   ],
   "note": "a missing package list counts as empty"
  },
  {
   "property": "C69",
   "status": "partial",
   "theorems": [
    "Verif.C69_identity_lost",
    "Verif.C69_identity_kept_partial"
   ],
   "note": "claim refuted; holds for files written for the same arguments"
  },
  {
   "property": "C70",
   "status": "proved",
   "theorems": [
    "Verif.C70_update_then_lookup",
    "Verif.C70_end_to_end"
   ],
   "note": "composition of the update API, the cache, and the lookup API"
  },
  {
   "property": "C71",
   "status": "proved",
   "theorems": [
    "Verif.C71_prerequisites_checked_first"
   ],
   "note": ""
  },
  {
   "property": "C72",
   "status": "partial",
   "theorems": [
    "Verif.C72_distinct_destinations_partial",
    "Verif.C72_shared_destination_refuted",
    "Verif.C72_xylem_destinations"
   ],
   "note": "claim refuted for arguments differing in dash/underscore; proved for arguments without underscores and for the xylem description"
  },
  {
   "property": "C73",
   "status": "partial",
   "theorems": [
    "Verif.C73_config_argument",
    "Verif.C73_dict_config",
    "Verif.C73_dict_config_unprocessed_refuted"
   ],
   "note": "claim refuted: directories and os override are not processed; proved: values and defaults"
  },
  {
   "property": "C74",
   "status": "proved",
   "theorems": [
    "Verif.C74_reading_again"
   ],
   "note": "path expansion must be idempotent"
  },
  {
   "property": "C75",
   "status": "proved",
   "theorems": [
    "Verif.C75_events_account_for_everything"
   ],
   "note": ""
  },
  {
   "property": "C76",
   "status": "proved",
   "theorems": [
    "Verif.C76_lsb",
    "Verif.C76_osx",
    "Verif.C76_other_os"
   ],
   "note": ""
  },
  {
   "property": "C77",
   "status": "proved",
   "theorems": [
    "Verif.C77_default_table",
    "Verif.C77_default_installers",
    "Verif.C77_builtin_installers",
    "Verif.C77_linux",
    "Verif.C77_osx",
    "Verif.C77_settings_from_config"
   ],
   "note": ""
  },
  {
   "property": "C78",
   "status": "partial",
   "theorems": [
    "Verif.C78_raises_for_a_reason",
    "Verif.C78_never_swallowed",
    "Verif.C78_planning_error_witness"
   ],
   "note": "claim refuted for InstallerError while planning (C78_planning_error_witness: UnboundLocalError); proved in full with that deviation spelled out in raisedBy"
  },
  {
   "property": "C79",
   "status": "proved",
   "theorems": [
    "Verif.C79_interrupted_update"
   ],
   "note": ""
  },
  {
   "property": "C80",
   "status": "partial",
   "theorems": [
    "Verif.C80_announcement",
    "Verif.C80_shown_command",
    "Verif.C80_error_message_lines",
    "Verif.C80_resolve_output",
    "Verif.C80_line_tells_key",
    "Verif.C80_resolution_text",
    "Verif.C80_builtin_resolutions_shown",
    "Verif.C80_null_package_crashes_refuted",
    "Verif.C80_install_output"
   ],
   "note": "refuted for null packages (C80_null_package_crashes_refuted); proved with colours off for everything that can be shown"
  },
  {
   "property": "C81",
   "status": "partial",
   "theorems": [
    "Verif.C81_failed_update_exits_zero_refuted",
    "Verif.C81_update_status_partial"
   ],
   "note": "claim refuted (C81_failed_update_exits_zero_refuted); the actual status is characterised by C81_update_status_partial"
  },
  {
   "property": "C82",
   "status": "partial",
   "theorems": [
    "Verif.C82_touched_only_if",
    "Verif.C82_written",
    "Verif.C82_crash_contents",
    "Verif.C82_crash_loses_rules_refuted",
    "Verif.C82_settles",
    "Verif.C82_settled_file",
    "Verif.C82_ends",
    "Verif.C82_current_os"
   ],
   "note": "crash safety refuted (C82_crash_loses_rules_refuted); everything else proved, assuming that YAML text is read back as an equal value (YamlWorks)"
  },
  {
   "property": "C83",
   "status": "partial",
   "theorems": [
    "Verif.C83_commands",
    "Verif.C83_broken_plugin_refuted"
   ],
   "note": "independence of broken plugins refuted (C83_broken_plugin_refuted); selection of commands and help proved"
  },
  {
   "property": "C84",
   "status": "partial",
   "theorems": [
    "Verif.C84_standalone_always_fails_refuted"
   ],
   "note": "claim refuted for every command definition"
  },
  {
   "property": "C85",
   "status": "proved",
   "theorems": [
    "Verif.C85_lookup_output"
   ],
   "note": ""
  },
  {
   "property": "C86",
   "status": "proved",
   "theorems": [
    "Verif.C86_equal_files",
    "Verif.C86_reordered",
    "Verif.C86_order_decides_refuted"
   ],
   "note": "the exception in the statement is shown real by C86_order_decides_refuted"
  },
  {
   "property": "C87",
   "status": "partial",
   "theorems": [
    "Verif.C87_marker_files",
    "Verif.C87_uname",
    "Verif.C87_windows",
    "Verif.C87_lsb_registered",
    "Verif.C87_osx",
    "Verif.C87_release_files",
    "Verif.C87_opensuse_codename",
    "Verif.C87_wrong_os",
    "Verif.C87_rhel_version",
    "Verif.C87_redhat_codename",
    "Verif.C87_fedora_version",
    "Verif.C87_gentoo_version",
    "Verif.C87_opensuse_version",
    "Verif.C87_lsb",
    "Verif.C87_other_exceptions_refuted"
   ],
   "note": "claim refuted for unusual file contents (C87_other_exceptions_refuted); everything else proved"
  },
  {
   "property": "C88",
   "status": "proved",
   "theorems": [
    "Verif.C88_override",
    "Verif.C88_empty_override"
   ],
   "note": ""
  },
  {
   "property": "C89",
   "status": "partial",
   "theorems": [
    "Verif.C89_last_listed_wins_partial",
    "Verif.C89_added_detector_never_wins_refuted",
    "Verif.C89_get_detector",
    "Verif.C89_default_list"
   ],
   "note": "claim refuted for every object (C89_added_detector_never_wins_refuted); the actual order proved"
  },
  {
   "property": "C90",
   "status": "partial",
   "theorems": [
    "Verif.C90_own_list_partial",
    "Verif.C90_own_list_only_partial",
    "Verif.C90_made_with_list_partial",
    "Verif.C90_shared_list_refuted"
   ],
   "note": "claim refuted for objects sharing the list of the class; proved for objects with their own list"
  },
  {
   "property": "C91",
   "status": "partial",
   "theorems": [
    "Verif.C91_detected_iff",
    "Verif.C91_name_kept",
    "Verif.C91_stale_override_refuted"
   ],
   "note": "last part refuted (C91_stale_override_refuted); the rest proved"
  },
  {
   "property": "C92",
   "status": "partial",
   "theorems": [
    "Verif.C92_aliases_written_out_partial",
    "Verif.C92_without_aliases",
    "Verif.C92_two_roles_refuted"
   ],
   "note": "refuted for dicts standing in two roles (C92_two_roles_refuted); proved for every file in which no dict does, hence for every file without aliases"
  },
  {
   "property": "C93",
   "status": "partial",
   "theorems": [
    "Verif.C93_compaction_written_out_partial",
    "Verif.C93_without_aliases",
    "Verif.C93_shared_os_dict_refuted"
   ],
   "note": "refuted for keys sharing their os dict (C93_shared_os_dict_refuted); proved for all other files without dicts in two roles, hence for every file without aliases"
  },
  {
   "property": "C94",
   "status": "proved",
   "theorems": [
    "Verif.C94_lookup_rules",
    "Verif.C94_lookups_are_repeatable",
    "Verif.C94_result_is_new",
    "Verif.C94_rules_are_shared"
   ],
   "note": "the remark on shared installer rules is shown by C94_rules_are_shared"
  },
  {
   "property": "C95",
   "status": "proved",
   "theorems": [
    "Verif.C95_merge_rules",
    "Verif.C95_result_structure"
   ],
   "note": ""
  },
  {
   "property": "C96",
   "status": "partial",
   "theorems": [
    "Verif.C96_values_arrive",
    "Verif.C96_switches",
    "Verif.C96_texts",
    "Verif.C96_accepted_iff",
    "Verif.C96_abbreviations",
    "Verif.C96_xylem_command_line",
    "Verif.C96_slash_refuted",
    "Verif.C96_config_dir_refuted"
   ],
   "note": "claim refuted for arguments with slashes (C96_slash_refuted) and for the argument config-dir (C96_config_dir_refuted); proved for all other descriptions, and without hypotheses for xylem itself (C96_xylem_command_line); argparse is modelled as far as options are concerned"
  },
  {
   "property": "C97",
   "status": "partial",
   "theorems": [
    "Verif.C97_options_before_command_ignored_refuted",
    "Verif.C97_options_before_command_partial"
   ],
   "note": "refuted for argparse since python 2.7.9 (C97_options_before_command_ignored_refuted); proved for the older argparse"
  },
  {
   "property": "C98",
   "status": "partial",
   "theorems": [
    "Verif.C98_reread_real_paths_partial",
    "Verif.C98_print_config",
    "Verif.C98_config_set",
    "Verif.C98_reread_partial",
    "Verif.C98_reread_override_refuted"
   ],
   "note": "printing and running proved in full (C98_print_config, C98_config_set); reading the printed config again is proved for configs without os override and refuted with (C98_reread_override_refuted); the YAML library is assumed to read what it wrote, path expansion to be idempotent"
  },
  {
   "property": "C99",
   "status": "partial",
   "theorems": [
    "Verif.C99_switches_partial",
    "Verif.C99_new_process",
    "Verif.C99_program",
    "Verif.C99_second_call_refuted",
    "Verif.C99_messages",
    "Verif.C99_last_call_decides"
   ],
   "note": "proved for a new process (C99_new_process) and for messages; refuted for a second call of main in one process (C99_second_call_refuted)"
  },
  {
   "property": "C100",
   "status": "proved",
   "theorems": [
    "Verif.C100_expansion",
    "Verif.C100_normal_unchanged",
    "Verif.C100_same_place",
    "Verif.C100_home",
    "Verif.C100_user_home",
    "Verif.C100_directories"
   ],
   "note": "posixpath is modelled as library code (expanduser, abspath, normpath); symbolic links are not modelled: \"the same place\" is meant lexically; C98_reread_real_paths_partial discharges the hypotheses of C98 on path expansion"
  },
  {
   "property": "C101",
   "status": "partial",
   "theorems": [
    "Verif.C101_dry_run",
    "Verif.C101_fix_only_if_given",
    "Verif.C101_stops_at_first_failure",
    "Verif.C101_nothing_happens",
    "Verif.C101_reinstall_refuted",
    "Verif.C101_continue_on_error_partial"
   ],
   "note": "refuted for --reinstall (C101_reinstall_refuted); --continue-on-error proved for runs that no exception ends; the rest proved for the whole program from the list of options to the list of events"
  },
  {
   "property": "C102",
   "status": "partial",
   "theorems": [
    "Verif.C102_status_zero",
    "Verif.C102_exit_status_zero_means_installed_partial",
    "Verif.C102_no_errors_means_installed_partial",
    "Verif.C102_failed_check_refuted",
    "Verif.C102_no_commands_refuted",
    "Verif.C102_shipped_plugins_partial",
    "Verif.C102_shipped_installed_partial"
   ],
   "note": "refuted for plugins whose installed-check fails (C102_failed_check_refuted) or that have no commands (C102_no_commands_refuted); proved for all others, for the API and for the whole program"
  },
  {
   "property": "C103",
   "status": "partial",
   "theorems": [
    "Verif.C103_directory_given",
    "Verif.C103_update_stays_in_cache_dir",
    "Verif.C103_update_reads_sources_dir",
    "Verif.C103_update_dry_run_refuted"
   ],
   "note": "last part refuted, always (C103_update_dry_run_refuted); the rest proved"
  },
  {
   "property": "C104",
   "status": "proved",
   "theorems": [
    "Verif.C104_os_given"
   ],
   "note": ""
  },
  {
   "property": "C105",
   "status": "proved",
   "theorems": [
    "Verif.C105_update_then_command"
   ],
   "note": ""
  },
  {
   "property": "C106",
   "status": "partial",
   "theorems": [
    "Verif.C106_same_config",
    "Verif.C106_abbreviations_refuted"
   ],
   "note": "refuted for abbreviated options (C106_abbreviations_refuted); proved for options written in full"
  },
  {
   "property": "C107",
   "status": "proved",
   "theorems": [
    "Verif.C107_resolve_run",
    "Verif.C107_install_works_on_it"
   ],
   "note": ""
  },
  {
   "property": "C108",
   "status": "partial",
   "theorems": [
    "Verif.C108_default_config",
    "Verif.C108_defaults_stay_partial",
    "Verif.C108_assignments",
    "Verif.C108_shared_default_refuted"
   ],
   "note": "refuted for changes inside default values (C108_shared_default_refuted); proved for assignments and arbitrary changes of objects other than defaults, for all programs"
  },
  {
   "property": "C109",
   "status": "proved",
   "theorems": [
    "Verif.C109_merge_configs",
    "Verif.C109_values_shared"
   ],
   "note": "C109_values_shared records that values of the result are not copies"
  },
  {
   "property": "C110",
   "status": "proved",
   "theorems": [
    "Verif.C110_ensure_config",
    "Verif.C110_ensure_config_same",
    "Verif.C110_load_config"
   ],
   "note": ""
  },
  {
   "property": "C111",
   "status": "proved",
   "theorems": [
    "Verif.C111_copy_to_dict"
   ],
   "note": ""
  },
  {
   "property": "C112",
   "status": "partial",
   "theorems": [
    "Verif.C112_change_directory_partial",
    "Verif.C112_runs_inside",
    "Verif.C112_cannot_enter",
    "Verif.C112_default_argument_refuted",
    "Verif.C112_original_gone_refuted",
    "Verif.C112_original_replaced_refuted",
    "Verif.C112_nested",
    "Verif.C112_same_object_refuted",
    "Verif.C112_temporary_directory_partial",
    "Verif.C112_rmtree_refuted",
    "Verif.C112_redirected_stdio_partial",
    "Verif.C112_captured",
    "Verif.C112_stdio_nested",
    "Verif.C112_stdio_same_object_refuted"
   ],
   "note": "refuted: default argument, reuse of one object, vanished or replaced directory, failing rmtree; proved for all blocks otherwise"
  },
  {
   "property": "C113",
   "status": "partial",
   "theorems": [
    "Verif.C113_text_survives",
    "Verif.C113_bytes_survive_iff",
    "Verif.C113_valid_part_kept",
    "Verif.C113_damage_visible",
    "Verif.C113_idempotent",
    "Verif.C113_total",
    "Verif.C113_type_name",
    "Verif.C113_bytes_of_objects",
    "Verif.C113_objects_partial",
    "Verif.C113_objects_refuted",
    "Verif.C113_printed_text",
    "Verif.C113_printed_injective",
    "Verif.C113_lists_look_alike_refuted",
    "Verif.C113_lists_partial"
   ],
   "note": "refuted for objects whose methods raise and for lists with commas; the claims about texts and byte strings are proved in full"
  },
  {
   "property": "C114",
   "status": "partial",
   "theorems": [
    "Verif.C114_raises_iff",
    "Verif.C114_ascii_message_partial",
    "Verif.C114_other_message_refuted",
    "Verif.C114_chain"
   ],
   "note": "refuted for messages that are not ASCII; the exact condition of failure is proved"
  },
  {
   "property": "C115",
   "status": "partial",
   "theorems": [
    "Verif.C115_update_partial",
    "Verif.C115_update_refuted",
    "Verif.C115_load_from_cache_partial",
    "Verif.C115_load_from_cache_refuted",
    "Verif.C115_source_list_partial",
    "Verif.C115_source_list_refuted"
   ],
   "note": "refuted for error texts with bytes that are not ASCII; otherwise the update is the one of C19"
  },
  {
   "property": "C116",
   "status": "proved",
   "theorems": [
    "Verif.C116_shown_is_installed"
   ],
   "note": ""
  },
  {
   "property": "C117",
   "status": "proved",
   "theorems": [
    "Verif.C117_lookup_run",
    "Verif.C117_resolve_uses_shown",
    "Verif.C117_after_update"
   ],
   "note": "dump_yaml is an arbitrary function that ends its text with a line break"
  },
  {
   "property": "C118",
   "status": "proved",
   "theorems": [
    "Verif.C118_dry_run_foretells",
    "Verif.C118_shipped_plan_ahead",
    "Verif.C118_shows_the_plan",
    "Verif.C118_dry_run_output",
    "Verif.C118_null_package_witness",
    "Verif.C118_simulation_finds_nulls"
   ],
   "note": "for installers whose commands do not depend on the state of the machine, which is proved for all shipped ones (C118_shipped_plan_ahead)"
  },
  {
   "property": "C119",
   "status": "proved",
   "theorems": [
    "Verif.C119_opened",
    "Verif.C119_same_ending",
    "Verif.C119_update_output",
    "Verif.C119_same_update",
    "Verif.C119_update_report",
    "Verif.C119_silent_iff_updated",
    "Verif.C119_under_own_file"
   ],
   "note": "the forming of the messages is taken to succeed (C115 says when it does not); texts of exceptions and python renderings of values are parameters; debug lines are not modelled"
  },
  {
   "property": "C120",
   "status": "proved",
   "theorems": [
    "Verif.C120_same_database",
    "Verif.C120_opening_output",
    "Verif.C120_stdout",
    "Verif.C120_directories"
   ],
   "note": "texts of YAML errors are a parameter; debug lines are not modelled"
  },
  {
   "property": "C121",
   "status": "proved",
   "theorems": [
    "Verif.C121_nothing_to_install",
    "Verif.C121_install_again",
    "Verif.C121_shipped_exact",
    "Verif.C121_shipped",
    "Verif.C121_run_again"
   ],
   "note": "expects of the world what C102 expects, and that installed-checks are exact, which is proved for all shipped installers (C121_shipped_exact). The checks of apt, homebrew and macports never say that something is installed, so with them the premise is met only if there is nothing to install"
  },
  {
   "property": "C122",
   "status": "proved",
   "theorems": [
    "Verif.C122_resolve_stdout",
    "Verif.C122_install_stdout",
    "Verif.C122_lookup_stdout",
    "Verif.C122_update_stdout"
   ],
   "note": "over the programs of Model/ProgramOutput, which have every message but debug lines; texts of exceptions, values and the warnings printed by plugins are parameters. For update, what it prints is C119"
  },
  {
   "property": "C123",
   "status": "partial",
   "theorems": [
    "Verif.C123_verbose_line_refuted",
    "Verif.C123_nothing_else_partial",
    "Verif.C123_lookup_line_per_key_refuted"
   ],
   "note": "refuted: C123_verbose_line_refuted, C123_lookup_line_per_key_refuted; proved: this line is the only thing verbose adds on stdout"
  },
  {
   "property": "C124",
   "status": "proved",
   "theorems": [
    "Verif.C124_missing_core_installers",
    "Verif.C124_osx_complains",
    "Verif.C124_database_messages",
    "Verif.C124_plugin_messages",
    "Verif.C124_context_messages",
    "Verif.C124_unknown_options",
    "Verif.C124_unknown_rule_keys"
   ],
   "note": "colours off; for set ups that succeed. What the reports about entry points mean is said by C43_loaded"
  },
  {
   "property": "C125",
   "status": "proved",
   "theorems": [
    "Verif.C125_several_messages_witness",
    "Verif.C125_resolve_messages",
    "Verif.C125_found_names_installer",
    "Verif.C125_complete_output"
   ],
   "note": "colours off for the texts of messages; C125_complete_output for any colours. What the installing part prints only if verbose (four messages of install.py, those of the package manager checks, all on stderr) is not in the model"
  },
  {
   "property": "C126",
   "status": "partial",
   "theorems": [
    "Verif.C126_layout",
    "Verif.C126_nothing_lost",
    "Verif.C126_width",
    "Verif.C126_raw_partial",
    "Verif.C126_joined",
    "Verif.C126_raw_after_newline_refuted",
    "Verif.C126_words_stay_apart"
   ],
   "note": "refuted for raw paragraphs after a leading line break (C126_raw_after_newline_refuted); the rest is proved, given that textwrap.wrap keeps visible characters and the width"
  },
  {
   "property": "C127",
   "status": "proved",
   "theorems": [
    "Verif.C127_config_entry",
    "Verif.C127_type_and_default",
    "Verif.C127_xylem_names"
   ],
   "note": "names of config entries without dashes (C127_xylem_names: true of all entries of xylem); argparse and its expansion of % not modelled"
  },
  {
   "property": "C128",
   "status": "partial",
   "theorems": [
    "Verif.C128_same_as_made",
    "Verif.C128_lookup_and_update",
    "Verif.C128_commands_call_the_api",
    "Verif.C128_wrong_context",
    "Verif.C128_only_install_from",
    "Verif.C128_message_refuted"
   ],
   "note": "the message about a wrong context is refuted (C128_message_refuted); everything else proved"
  },
  {
   "property": "C129",
   "status": "partial",
   "theorems": [
    "Verif.C129_plain_dict_partial",
    "Verif.C129_plain_dict_refuted"
   ],
   "note": "refuted for update and lookup (C129_plain_dict_refuted), proved for resolve and install"
  },
  {
   "property": "C130",
   "status": "proved",
   "theorems": [
    "Verif.C130_lists",
    "Verif.C130_dicts",
    "Verif.C130_plain_values"
   ],
   "note": "the YAML parser is a parameter (it raises YAMLError or returns a value; dicts have no duplicate keys)"
  },
  {
   "property": "C131",
   "status": "proved",
   "theorems": [
    "Verif.C131_same_installation",
    "Verif.C131_stderr_only",
    "Verif.C131_quiet",
    "Verif.C131_program",
    "Verif.C131_complete_output"
   ],
   "note": "what the checks of other plugins print is a parameter; C133_on_stderr shows what is asked of it for package managers"
  },
  {
   "property": "C132",
   "status": "proved",
   "theorems": [
    "Verif.C132_success_is_true",
    "Verif.C132_return_codes",
    "Verif.C132_summary"
   ],
   "note": ""
  },
  {
   "property": "C133",
   "status": "partial",
   "theorems": [
    "Verif.C133_same_check",
    "Verif.C133_missing",
    "Verif.C133_present",
    "Verif.C133_nothing_to_say",
    "Verif.C133_failure_is_said",
    "Verif.C133_outdated_which_refuted",
    "Verif.C133_on_stderr"
   ],
   "note": "the name in the advice to update is refuted (C133_outdated_which_refuted); everything else proved"
  },
  {
   "property": "C134",
   "status": "partial",
   "theorems": [
    "Verif.C134_command_error",
    "Verif.C134_setup_error",
    "Verif.C134_no_error",
    "Verif.C134_debugger",
    "Verif.C134_debugger_switch",
    "Verif.C134_other_scripts_refuted"
   ],
   "note": "refuted for scripts of other names (C134_other_scripts_refuted); highlighting by pygments not modelled; chains of causes are finite"
  },
  {
   "property": "C135",
   "status": "partial",
   "theorems": [
    "Verif.C135_finished_partial",
    "Verif.C135_loads_partial",
    "Verif.C135_pieces_mix",
    "Verif.C135_mixture_refuted",
    "Verif.C135_directory_there_partial",
    "Verif.C135_directory_partial",
    "Verif.C135_directory_refuted",
    "Verif.C135_directory_alone"
   ],
   "note": "refuted for files written in several pieces (C135_pieces_mix, C135_mixture_refuted) and for the cache directory (C135_directory_refuted); proved for files written in one piece; parent of the cache directory assumed to exist"
  },
  {
   "property": "C136",
   "status": "partial",
   "theorems": [
    "Verif.C136_meanwhile_partial",
    "Verif.C136_one_writer_partial",
    "Verif.C136_empty_file_refuted",
    "Verif.C136_read_in_pieces_partial",
    "Verif.C136_read_in_pieces_refuted"
   ],
   "note": "refuted: C136_empty_file_refuted, C136_read_in_pieces_refuted; the _partial theorems say what holds for files read at one moment and for files read in pieces"
  },
  {
   "property": "C137",
   "status": "proved",
   "theorems": [
    "Verif.C137_options_documented",
    "Verif.C137_loaded_options",
    "Verif.C137_defaults"
   ],
   "note": "C137_options_documented compares the description built by the model with the table of documented options; the other theorems are about loading"
  },
  {
   "property": "C138",
   "status": "partial",
   "theorems": [
    "Verif.C138_unchanged_partial",
    "Verif.C138_result_lost_refuted"
   ],
   "note": "refuted: C138_result_lost_refuted (the function has no return statement at its end); C138_unchanged_partial says what holds"
  },
  {
   "property": "C139",
   "status": "proved",
   "theorems": [
    "Verif.C139_words_as_options",
    "Verif.C139_wrong_number_of_keys",
    "Verif.C139_behind_dashes",
    "Verif.C139_accepted",
    "Verif.C139_write_needs_word",
    "Verif.C139_write_word",
    "Verif.C139_run_of_words",
    "Verif.C139_run_behind_dashes",
    "Verif.C139_every_run",
    "Verif.C139_dry_run_word",
    "Verif.C139_fix_needs_word",
    "Verif.C139_wrong_number_of_keys_run"
   ],
   "note": "Model/Argv is argparse of python 2.7 word by word; C139_accepted and C139_every_run carry the theorems on options and keys over to all words"
  },
  {
   "property": "C140",
   "status": "partial",
   "theorems": [
    "Verif.C140_keys_apart_refuted",
    "Verif.C140_keys_apart_run_refuted",
    "Verif.C140_refusals_partial",
    "Verif.C140_empty_value_refuted"
   ],
   "note": "refuted: C140_keys_apart_refuted, C140_keys_apart_run_refuted, C140_empty_value_refuted; C140_refusals_partial says what holds for all words"
  },
  {
   "property": "C141",
   "status": "partial",
   "theorems": [
    "Verif.C141_save_raises_iff",
    "Verif.C141_save_first_failure",
    "Verif.C141_save_skips",
    "Verif.C141_load_from_source",
    "Verif.C141_load_and_save_is_update",
    "Verif.C141_unloaded_destroys_cache_refuted",
    "Verif.C141_failed_download_refuted"
   ],
   "note": "last part refuted: C141_unloaded_destroys_cache_refuted, C141_failed_download_refuted; the rest is proved"
  },
  {
   "property": "C142",
   "status": "proved",
   "theorems": [
    "Verif.C142_as_if_uninstalled",
    "Verif.C142_same_contexts",
    "Verif.C142_broken_module"
   ],
   "note": "over whole runs from the words of the command line (Model/ArgvProgram) and over the contexts; importing a module is assumed to have no other effect than its outcome"
  },
  {
   "property": "C143",
   "status": "proved",
   "theorems": [
    "Verif.C143_install_from",
    "Verif.C143_one_os",
    "Verif.C143_override",
    "Verif.C143_installers",
    "Verif.C143_features"
   ],
   "note": "stated on the values of the options in the effective config (readOpt), for what the commands find with it; how options get there is C46-C50, C96-C100"
  },
  {
   "property": "C144",
   "status": "proved",
   "theorems": [
    "Verif.C144_only_if_asked",
    "Verif.C144_help",
    "Verif.C144_help_of_command"
   ],
   "note": "C144_help is about requests before the name of a command, C144_help_of_command about those behind it, C144_only_if_asked is the converse, for every list of words. Exit status 2 is possible only if a word behind the request is no argument and no option the parser knows (argparse classifies all words first). What help and version print is argparse's and not modelled."
  },
  {
   "property": "C145",
   "status": "partial",
   "theorems": [
    "Verif.C145_whatever_order_partial",
    "Verif.C145_same_contexts_partial",
    "Verif.C145_builtin_plugins",
    "Verif.C145_builtin_program",
    "Verif.C145_additional_refuted"
   ],
   "note": "The claim without the condition on additional installers is false: C145_additional_refuted (of two additional installers with rules for a key the one found last is used); C44_unrelated_depends_on_order shows the same for oses, neither of which derives from the other. C145_whatever_order_partial is about whole runs, C145_same_contexts_partial about the API, under the conditions in the statement; C145_builtin_plugins and C145_builtin_program are full statements for the plugins that come with xylem. That nothing raises is needed because the order decides which of several exceptions is seen first."
  },
  {
   "property": "C146",
   "status": "partial",
   "theorems": [
    "Verif.C146_same_verdict",
    "Verif.C146_blames_first",
    "Verif.C146_something_to_blame",
    "Verif.C146_message_partial",
    "Verif.C146_binary_refuted",
    "Verif.C146_verify_chain",
    "Verif.C146_verify_accepts"
   ],
   "note": "refuted for byte strings that are not ASCII (C146_binary_refuted); otherwise proved in full: C146_blames_first and C146_something_to_blame determine for every value the outcome. How a value is shown and the name of its type are parameters. The claim is about from_yaml and verify of the types; the options of a dict are read in the order of the model's list (python 2 has its own order). The type of dict keys is no merging dict (KeysOk; xylem has none such)."
  },
  {
   "property": "C147",
   "status": "partial",
   "theorems": [
    "Verif.C147_words_mean_their_text_partial",
    "Verif.C147_words_refuted",
    "Verif.C147_brackets",
    "Verif.C147_texts"
   ],
   "note": "refuted for lists and dicts without brackets (C147_words_refuted, which says exactly when); C147_words_mean_their_text_partial covers all other words. Assumed: load_yaml reads bytes as the UTF-8 text they encode (ReadsUtf8) and, for C147_words_refuted, raises nothing but YAMLError."
  },
  {
   "property": "C148",
   "status": "partial",
   "theorems": [
    "Verif.C148_ascii_keys_partial",
    "Verif.C148_other_keys_refuted",
    "Verif.C148_decode_error_refuted",
    "Verif.C148_lookup_ascii_partial",
    "Verif.C148_lookup_refuted"
   ],
   "note": "refuted (C148_other_keys_refuted, C148_decode_error_refuted, C148_lookup_refuted); C148_ascii_keys_partial and C148_lookup_ascii_partial: ASCII keys are treated as their texts. What the databases do with a key that is equal to no text is a parameter (anything). Words that are ASCII as options of the configuration: C147."
  },
  {
   "property": "C149",
   "status": "partial",
   "theorems": [
    "Verif.C149_not_run_refuted",
    "Verif.C149_no_colour_refuted",
    "Verif.C149_whole_installation_refuted",
    "Verif.C149_simulated_refuted",
    "Verif.C149_run_partial",
    "Verif.C149_one_mark_partial",
    "Verif.C149_homebrew_witness"
   ],
   "note": "refuted (C149_not_run_refuted, C149_no_colour_refuted, C149_whole_installation_refuted, C149_simulated_refuted, C149_homebrew_witness); C149_run_partial: commands without @ are run. C149_one_mark_partial: with one @, a command is run exactly if the @ begins a mark of the table (a short mark, @name or @{name}) or ends the line. Lines with several @ are covered only by the refuted parts (their first @)."
  },
  {
   "property": "C150",
   "status": "partial",
   "theorems": [
    "Verif.C150_resolve_ignores_depends_refuted",
    "Verif.C150_install_ignores_depends_refuted",
    "Verif.C150_depends_known_partial",
    "Verif.C150_witness"
   ],
   "note": "refuted (C150_resolve_ignores_depends_refuted, C150_install_ignores_depends_refuted, C150_witness); C150_depends_known_partial: a plugin reports what a valid rule depends on, in order."
  }
 ]
}