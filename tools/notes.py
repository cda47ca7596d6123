NOTES = {
'C01': ('proved', 'exact characterisation of lookup results, all inputs'),
'C02': ('proved', ''),
'C04': ('proved', 'with the counter-example showing the side condition is needed'),
'C05': ('proved', 'source and database level'),
'C06': ('proved', ''),
'C07': ('proved', ''),
'C08': ('proved', ''),
'C09': ('proved', 'per key, os, version, installer, plus failure condition'),
'C10': ('proved', ''),
'C11': ('proved', 'including the trailing-newline deviation'),
'C12': ('partial', 'claim refuted at the top level (flag dropped in rules_dict.py:102); proved for the levels below'),
'C13': ('proved', ''),
'C14': ('proved', 'for rules in the normal form established by loading (loaded_is_good)'),
'C15': ('partial', 'claim refuted (C15_second_round_shrinks); proved: fixed point when no version entry duplicates any_version, and the second round is always a fixed point'),
'C16': ('proved', ''),
'C17': ('partial', 'the claim is false when the merge crashes (C17_merge_crashes); proved for every successful merge, with the exact condition of success (C17_merge_succeeds_iff)'),
'C18': ('proved', ''),
'C03': ('proved', 'any list of sources, any spec plugins; side condition (python dicts) discharged for the rules spec'),
'C19': ('proved', 'ordinary exceptions; KeyboardInterrupt and SystemExit end the update, see C79; that the message about a failed source can be formed is assumed, see C115 for when it cannot'),
'C20': ('proved', ''),
'C21': ('proved', 'per source and for the whole database; no KeyboardInterrupt or SystemExit during the update'),
'C22': ('partial', 'claim refuted (C22_window_of_loss); proved: contents at every crash point, at most one damaged file, recovery by the next update; C22_bytes, C22_crash_at_any_byte: the same for crashes at any byte, whatever the pieces in which files are written'),
'C23': ('proved', 'invariant over every history of database operations'),
'C24': ('proved', ''),
'C25': ('partial', 'claim refuted; only the missing-file case works'),
'C69': ('partial', 'claim refuted; holds for files written for the same arguments'),
'C66': ('partial', 'claim refuted: TypeError instead of SpecParsingError, for every malformed dict'),
'C26': ('proved', 'exact characterisation for every response sequence and retry count'),
'C58': ('partial', 'claim refuted (hidden files are read; dot directories are not); exact behaviour proved'),
'C59': ('proved', ''),
'C64': ('partial', 'claim refuted: dry_run is ignored; proved: only cache files of the sources are touched'),
'C65': ('partial', 'claim refuted for compact=False (always crashes); proved for compact=True'),
'C70': ('proved', 'composition of the update API, the cache, and the lookup API'),
'C57': ('partial', 'claim refuted for braces (doubled), for --no-color (marks dropped) and for unsanitised @ (KeyError); exact behaviour proved'),
'C63': ('proved', 'finite cause chains; per-exception text is a parameter'),
'C27': ('proved', ''),
'C28': ('partial', 'claim refuted for additional installers: the last one with a rule is used, not the first; exact choice proved'),
'C29': ('proved', ''),
'C30': ('partial', 'claim refuted: a lookup raising something else than LookupError aborts the whole request; proved for requests that return'),
'C31': ('proved', 'existence and uniqueness of the grouping'),
'C32': ('proved', 'no command is executed; the machine is unchanged unless prerequisites are fixed (C32_simulate_may_fix)'),
'C33': ('proved', ''),
'C34': ('partial', 'claim refuted when a command cannot be started, contains markup, or cannot be composed; proved for runs that return, and that runs with well behaved plugins return'),
'C35': ('proved', ''),
'C36': ('proved', ''),
'C37': ('partial', 'claim refuted: a failed installed-check is a silent success; resolve and command failures are reported'),
'C38': ('partial', 'claim refuted: reinstall always crashes; proved: it never plans or executes a command'),
'C41': ('proved', ''),
'C71': ('proved', ''),
'C48': ('proved', 'for every description built by add, merged layers and load_config; defaults of merging dict options must be dicts (holds for xylem, xylem_defaults)'),
'C49': ('proved', 'equality of options; dict values up to order of items'),
'C50': ('proved', 'from files and from the command line; key types must not be merging dicts (not hashable)'),
'C51': ('partial', 'claim refuted for groups with a null value (AttributeError); everything else proved'),
'C52': ('partial', 'claim refuted for command line arguments (duplicate is added before the error); names and keys proved for every history, arguments if no add raised'),
'C53': ('proved', ''),
'C54': ('proved', 'white space and separators are arbitrary predicates/positions'),
'C55': ('proved', ''),
'C72': ('partial', 'claim refuted for arguments differing in dash/underscore; proved for arguments without underscores and for the xylem description'),
'C73': ('partial', 'claim refuted: directories and os override are not processed; proved: values and defaults'),
'C74': ('proved', 'path expansion must be idempotent'),
'C56': ('proved', 'commands must not be empty (an empty one raises IndexError, shown); the option default and the commands of the package manager plugins included'),
'C61': ('partial', 'claim refuted for apt, homebrew, macports and pip with fixing (TypeError); proved for arbitrary plugins up to exceptions raised by the plugin'),
'C62': ('proved', ''),
'C67': ('partial', 'hash part refuted (always raises); equality proved, also to be an equivalence'),
'C68': ('proved', 'a missing package list counts as empty'),
'C39': ('proved', 'touch must work as on a file system (hypothesis TouchWorks), no @ in file names, fake is loaded with a directory; otherwise arbitrary machine, keys and rules'),
'C40': ('partial', 'claim refuted: the installed-check of these plugins always says no, so every real installation is reported as failed; proved: no command failure is reported if all commands succeed'),
'C75': ('proved', ''),
'C44': ('proved', 'no plugin detection raises (hypothesis); with unrelated detecting plugins the choice depends on the order (C44_unrelated_depends_on_order)'),
'C45': ('proved', ''),
'C46': ('proved', ''),
'C47': ('partial', 'claim refuted for unknown versions, which do not raise (C47_unknown_version_accepted); proved: shape of the tuples for every version'),
'C76': ('proved', ''),
'C42': ('proved', 'installers are told apart by identity, as loaded; two installers of the same name are possible through a fake name (C42_same_name_witness); null entries for core installers or options raise (C42_null_core_installer, C42_null_options)'),
'C43': ('partial', 'claim refuted for plugins whose import or constructor raises: these abort loading even if disabled; proved for all others'),
'C77': ('proved', ''),
'C78': ('partial', 'claim refuted for InstallerError while planning (C78_planning_error_witness: UnboundLocalError); proved in full with that deviation spelled out in raisedBy'),
'C79': ('proved', ''),
'C60': ('partial', 'refuted for errors while commands or the config are set up, which end in a traceback (C60_setup_errors_refuted; the status is still 1), and status 0 of install does not imply that everything is installed (C60_silent_success, see C37); status proved exactly in all other cases'),
'C80': ('partial', 'refuted for null packages (C80_null_package_crashes_refuted); proved with colours off for everything that can be shown'),
'C81': ('partial', 'claim refuted (C81_failed_update_exits_zero_refuted); the actual status is characterised by C81_update_status_partial'),
'C82': ('partial', 'crash safety refuted (C82_crash_loses_rules_refuted); everything else proved, assuming that YAML text is read back as an equal value (YamlWorks)'),
'C83': ('partial', 'independence of broken plugins refuted (C83_broken_plugin_refuted); selection of commands and help proved'),
'C84': ('partial', 'claim refuted for every command definition'),
'C85': ('proved', ''),
'C86': ('proved', 'the exception in the statement is shown real by C86_order_decides_refuted'),
'C87': ('partial', 'claim refuted for unusual file contents (C87_other_exceptions_refuted); everything else proved'),
'C88': ('proved', ''),
'C89': ('partial', 'claim refuted for every object (C89_added_detector_never_wins_refuted); the actual order proved'),
'C90': ('partial', 'claim refuted for objects sharing the list of the class; proved for objects with their own list'),
'C91': ('partial', 'last part refuted (C91_stale_override_refuted); the rest proved'),
'C92': ('partial', 'refuted for dicts standing in two roles (C92_two_roles_refuted); proved for every file in which no dict does, hence for every file without aliases'),
'C93': ('partial', 'refuted for keys sharing their os dict (C93_shared_os_dict_refuted); proved for all other files without dicts in two roles, hence for every file without aliases'),
'C94': ('proved', 'the remark on shared installer rules is shown by C94_rules_are_shared'),
'C95': ('proved', ''),
'C96': ('partial', 'claim refuted for arguments with slashes (C96_slash_refuted) and for the argument config-dir (C96_config_dir_refuted); proved for all other descriptions, and without hypotheses for xylem itself (C96_xylem_command_line); argparse is modelled as far as options are concerned'),
'C97': ('partial', 'refuted for argparse since python 2.7.9 (C97_options_before_command_ignored_refuted); proved for the older argparse'),
'C98': ('partial', 'printing and running proved in full (C98_print_config, C98_config_set); reading the printed config again is proved for configs without os override and refuted with (C98_reread_override_refuted); the YAML library is assumed to read what it wrote, path expansion to be idempotent'),
'C99': ('partial', 'proved for a new process (C99_new_process) and for messages; refuted for a second call of main in one process (C99_second_call_refuted)'),
'C100': ('proved', 'posixpath is modelled as library code (expanduser, abspath, normpath); symbolic links are not modelled: "the same place" is meant lexically; C98_reread_real_paths_partial discharges the hypotheses of C98 on path expansion'),
'C101': ('partial', 'refuted for --reinstall (C101_reinstall_refuted); --continue-on-error proved for runs that no exception ends; the rest proved for the whole program from the list of options to the list of events'),
'C102': ('partial', 'refuted for plugins whose installed-check fails (C102_failed_check_refuted) or that have no commands (C102_no_commands_refuted); proved for all others, for the API and for the whole program'),
'C103': ('partial', 'last part refuted, always (C103_update_dry_run_refuted); the rest proved'),
'C104': ('proved', ''),
'C105': ('proved', ''),
'C106': ('partial', 'refuted for abbreviated options (C106_abbreviations_refuted); proved for options written in full'),
'C107': ('proved', ''),
'C108': ('partial', 'refuted for changes inside default values (C108_shared_default_refuted); proved for assignments and arbitrary changes of objects other than defaults, for all programs'),
'C109': ('proved', 'C109_values_shared records that values of the result are not copies'),
'C110': ('proved', ''),
'C111': ('proved', ''),
'C112': ('partial', 'refuted: default argument, reuse of one object, vanished or replaced directory, failing rmtree; proved for all blocks otherwise'),
'C113': ('partial', 'refuted for objects whose methods raise and for lists with commas; the claims about texts and byte strings are proved in full'),
'C114': ('partial', 'refuted for messages that are not ASCII; the exact condition of failure is proved'),
'C115': ('partial', 'refuted for error texts with bytes that are not ASCII; otherwise the update is the one of C19'),
'C116': ('proved', ''),
'C117': ('proved', 'dump_yaml is an arbitrary function that ends its text with a line break'),
'C118': ('proved', 'for installers whose commands do not depend on the state of the machine, which is proved for all shipped ones (C118_shipped_plan_ahead)'),
'C119': ('proved', 'the forming of the messages is taken to succeed (C115 says when it does not); texts of exceptions and python renderings of values are parameters; debug lines are not modelled'),
'C120': ('proved', 'texts of YAML errors are a parameter; debug lines are not modelled'),
'C121': ('proved', 'expects of the world what C102 expects, and that installed-checks are exact, which is proved for all shipped installers (C121_shipped_exact). The checks of apt, homebrew and macports never say that something is installed, so with them the premise is met only if there is nothing to install'),
'C122': ('proved', 'over the programs of Model/ProgramOutput, which have every message but debug lines; texts of exceptions, values and the warnings printed by plugins are parameters. For update, what it prints is C119'),
'C123': ('partial', 'refuted: C123_verbose_line_refuted, C123_lookup_line_per_key_refuted; proved: this line is the only thing verbose adds on stdout'),
'C124': ('proved', 'colours off; for set ups that succeed. What the reports about entry points mean is said by C43_loaded'),
'C125': ('proved', 'colours off for the texts of messages; C125_complete_output for any colours. What the installing part prints only if verbose (four messages of install.py, those of the package manager checks, all on stderr) is not in the model'),
'C126': ('partial', 'refuted for raw paragraphs after a leading line break (C126_raw_after_newline_refuted); the rest is proved, given that textwrap.wrap keeps visible characters and the width'),
'C127': ('proved', 'names of config entries without dashes (C127_xylem_names: true of all entries of xylem); argparse and its expansion of % not modelled'),
'C128': ('partial', 'the message about a wrong context is refuted (C128_message_refuted); everything else proved'),
'C129': ('partial', 'refuted for update and lookup (C129_plain_dict_refuted), proved for resolve and install'),
'C130': ('proved', 'the YAML parser is a parameter (it raises YAMLError or returns a value; dicts have no duplicate keys)'),
'C131': ('proved', 'what the checks of other plugins print is a parameter; C133_on_stderr shows what is asked of it for package managers'),
'C132': ('proved', ''),
'C133': ('partial', 'the name in the advice to update is refuted (C133_outdated_which_refuted); everything else proved'),
'C134': ('partial', 'refuted for scripts of other names (C134_other_scripts_refuted); highlighting by pygments not modelled; chains of causes are finite'),
'C135': ('partial', 'refuted for files written in several pieces (C135_pieces_mix, C135_mixture_refuted) and for the cache directory (C135_directory_refuted); proved for files written in one piece; parent of the cache directory assumed to exist'),
'C136': ('partial', 'refuted: C136_empty_file_refuted, C136_read_in_pieces_refuted; the _partial theorems say what holds for files read at one moment and for files read in pieces'),
'C137': ('proved', 'C137_options_documented compares the description built by the model with the table of documented options; the other theorems are about loading'),
'C138': ('partial', 'refuted: C138_result_lost_refuted (the function has no return statement at its end); C138_unchanged_partial says what holds'),
'C139': ('proved', 'Model/Argv is argparse of python 2.7 word by word; C139_accepted and C139_every_run carry the theorems on options and keys over to all words'),
'C140': ('partial', 'refuted: C140_keys_apart_refuted, C140_keys_apart_run_refuted, C140_empty_value_refuted; C140_refusals_partial says what holds for all words'),
'C141': ('partial', 'last part refuted: C141_unloaded_destroys_cache_refuted, C141_failed_download_refuted; the rest is proved'),
'C142': ('proved', 'over whole runs from the words of the command line (Model/ArgvProgram) and over the contexts; importing a module is assumed to have no other effect than its outcome'),
'C143': ('proved', 'stated on the values of the options in the effective config (readOpt), for what the commands find with it; how options get there is C46-C50, C96-C100'),
'C144': ('proved', "C144_help is about requests before the name of a command, C144_help_of_command about those behind it, C144_only_if_asked is the converse, for every list of words. Exit status 2 is possible only if a word behind the request is no argument and no option the parser knows (argparse classifies all words first). What help and version print is argparse's and not modelled."),
'C145': ('partial', "The claim without the condition on additional installers is false: C145_additional_refuted (of two additional installers with rules for a key the one found last is used); C44_unrelated_depends_on_order shows the same for oses, neither of which derives from the other. C145_whatever_order_partial is about whole runs, C145_same_contexts_partial about the API, under the conditions in the statement; C145_builtin_plugins and C145_builtin_program are full statements for the plugins that come with xylem. That nothing raises is needed because the order decides which of several exceptions is seen first."),
'C146': ('partial', "refuted for byte strings that are not ASCII (C146_binary_refuted); otherwise proved in full: C146_blames_first and C146_something_to_blame determine for every value the outcome. How a value is shown and the name of its type are parameters. The claim is about from_yaml and verify of the types; the options of a dict are read in the order of the model's list (python 2 has its own order). The type of dict keys is no merging dict (KeysOk; xylem has none such)."),
'C147': ('partial', "refuted for lists and dicts without brackets (C147_words_refuted, which says exactly when); C147_words_mean_their_text_partial covers all other words. Assumed: load_yaml reads bytes as the UTF-8 text they encode (ReadsUtf8) and, for C147_words_refuted, raises nothing but YAMLError."),
'C148': ('partial', "refuted (C148_other_keys_refuted, C148_decode_error_refuted, C148_lookup_refuted); C148_ascii_keys_partial and C148_lookup_ascii_partial: ASCII keys are treated as their texts. What the databases do with a key that is equal to no text is a parameter (anything). Words that are ASCII as options of the configuration: C147."),
'C149': ('partial', "refuted (C149_not_run_refuted, C149_no_colour_refuted, C149_whole_installation_refuted, C149_simulated_refuted, C149_homebrew_witness); C149_run_partial: commands without @ are run. C149_one_mark_partial: with one @, a command is run exactly if the @ begins a mark of the table (a short mark, @name or @{name}) or ends the line. Lines with several @ are covered only by the refuted parts (their first @)."),
'C150': ('partial', "refuted (C150_resolve_ignores_depends_refuted, C150_install_ignores_depends_refuted, C150_witness); C150_depends_known_partial: a plugin reports what a valid rule depends on, in order."),
}
