{
 "c20": [
  "C54_effective_override (added)"
 ],
 "c23": [
  "C50_values_read (added)"
 ],
 "c34": [
  "C48_declared_default (added)",
  "C48_defaults_fit (added)"
 ],
 "n16": [
  "C61_update_check (added)"
 ],
 "o18": [
  "C77_default_installers (added)"
 ],
 "o19": [
  "C77_default_table (added)",
  "C82_current_os (added)"
 ],
 "x02": [
  "C60_own_exceptions (added)"
 ],
 "x21": [
  "C32_dry_run_flag (added)"
 ],
 "x22": [
  "C33_without_flag (added)",
  "C34_continue_flag_partial (added)"
 ],
 "l03": [
  "C96_values_arrive",
  "C96_xylem_command_line"
 ],
 "l04": [
  "C96_values_arrive",
  "C96_xylem_command_line"
 ],
 "st13": [
  "C53_effective_directories"
 ],
 "pa03": [
  "C100_user_home"
 ],
 "en23": [
  "C113_bytes_of_objects"
 ],
 "od23": [
  "C90_own_list_only_partial"
 ],
 "u16": [
  "C43_disabled_builtins (added)"
 ],
 "se27": [
  "C43_disabled_builtins (added)"
 ],
 "se22": [
  "C43_disabled_builtins (added)"
 ],
 "k02": [
  "C101_fix_only_if_given (added)",
  "C33_without_flag (added)"
 ],
 "od05": [
  "C90_made_with_list_partial (added)"
 ],
 "in02": [
  "C80_resolution_text (added)"
 ],
 "in12": [
  "C61_present_passes (added)"
 ],
 "in14": [
  "C61_update_check (added)"
 ],
 "in17": [
  "C56_plugin_commands (generalized)"
 ],
 "in36": [
  "C67_hash_iff (added)"
 ],
 "so11": [
  "C120_directories (added)"
 ],
 "so12": [
  "C120_directories (added)"
 ],
 "so13": [
  "C120_directories (added)"
 ],
 "te01": [
  "C57_placeholder (added)",
  "C57_braced_placeholder (added)"
 ],
 "te02": [
  "C57_placeholder (added)",
  "C57_braced_placeholder (added)"
 ],
 "te08": [
  "C63_root_cause_first"
 ],
 "te10": [
  "C63_root_cause_first"
 ],
 "co05": [
  "C60_xylem_error_exits_one"
 ],
 "co21": [
  "C82_ends (added)"
 ],
 "is11": [
  "C80_announcement (added)"
 ],
 "is12": [
  "C80_announcement (added)"
 ],
 "cf10": [
  "C130_dicts (added)"
 ],
 "cf11": [
  "C130_lists (added)"
 ],
 "cf62": [
  "C137_options_documented (added)",
  "C137_loaded_options (added)"
 ],
 "cf63": [
  "C137_options_documented (added)",
  "C137_loaded_options (added)"
 ],
 "cf64": [
  "C138_result_lost_refuted (added)"
 ],
 "db20": [
  "C141_save_raises_iff (added)"
 ],
 "rs03": [
  "C30_raises_exactly"
 ],
 "rs07": [
  "C27_all_keys_of_sources (added)"
 ],
 "pg01": [
  "C142_as_if_uninstalled (added)",
  "C142_same_contexts (added)"
 ],
 "pg02": [
  "C143_one_os (added)"
 ],
 "pg04": [
  "C142_as_if_uninstalled (added)"
 ],
 "pg05": [
  "C143_one_os (added)"
 ],
 "pg06": [
  "C143_install_from (added)"
 ],
 "he06": [
  "C126_words_stay_apart (added)"
 ],
 "av40": [
  "C139_write_needs_word (added)",
  "C139_wrong_number_of_keys_run (restated)"
 ],
 "aq03": [
  "C139_write_needs_word (added)"
 ],
 "zu03": [
  "C112_stdio_nested (added)"
 ],
 "ze06": [
  "C113_objects_refuted (extended)"
 ],
 "hp13": [
  "C126_joined (new)"
 ]
}