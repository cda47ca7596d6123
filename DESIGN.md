# Formal model of catkin/xylem in Lean 4 — design

## 1. What is modelled

`/repo` is a Python 2/3 code base that in practice works on Python 2.7 only
(`descr.items()[0]` in `database.py:213`, `keys[0]` in `sources/impl.py:178`,
`hashlib.sha1(unicode)`), so the model follows **Python 2.7 semantics**
(`dict.items()` returns a list snapshot, so loops that assign to existing keys
of the dict they iterate over are well defined).

Modules (all under `lean/Verif`):

| module | content |
|---|---|
| `Py/Dict` | insertion-ordered dictionaries as association lists, the `for k, v in d.items(): d[k] = f(v)` loop |
| `Py/Val` | the values YAML can produce, python equality, exception classes |
| `Model/RulesDict` | `sources/rules_dict.py` |
| `Model/Expand` | `expand_*` / `compact_*` of `specs/plugins/rules.py`, `RulesSpec`, on trees |
| `Model/Heap`, `HeapCompact`, `HeapMerge` | the same functions, and lookup and merging, on a memory of mutable objects with identity |
| `Model/Database` | `sources/database.py`, with an explicit cache file system and crash points |
| `Model/CacheBytes` | the cache files as bytes, files written in pieces, several processes at once, creating the cache directory |
| `Model/Sources` | `sources/impl.py`, `load_url.py`, `update.py`, `lookup.py` |
| `Model/Resolve` | `resolve.py`, `util.remove_duplicates`, lookups in `InstallerContext` |
| `Model/Install` | `install.py` |
| `Model/Installers` | `installer_base.py`, `package_manager_installer.py`, the plugins |
| `Model/HeapConfig` | the functions of `config_utils.py` and `config.py` that make, merge and copy configs, on memory with shared objects |
| `Model/Setup` | `InstallerContext.setup_installers` of `installers/impl.py`, `plugin_utils.py` |
| `Model/OsSupport` | `os_support/impl.py`, `os_base.py`, `plugins.py` |
| `Model/OsDetect` | `os_support/os_detect.py`: all detectors and the class `OsDetect` |
| `Model/Config` | `config_utils.py`, `config.py` |
| `Model/ConfigMessages` | `from_yaml` and `verify` of the config types again, with the messages of refused values |
| `Model/ArgBytes` | `from_command_line` of the config types for words that are byte strings |
| `Model/KeyBytes` | `resolve` and the loop of `xylem lookup` for keys that are byte strings |
| `Model/CommandLine` | `add_arguments`, `arguments.py`, `create_command_parser`, and what argparse does with options |
| `Model/Argv` | `parser.parse_args(sysargs)`: what argparse (2.7) makes of the words of the command line, word by word |
| `Model/ArgvProgram` | `main(sysargs)` with the five commands of `setup.py`, from words to output, exit status and effects |
| `Model/Startup` | `arguments.handle_global_arguments`, `config.handle_config_arguments`, `process_config` on config dicts, `main` as a whole, messages |
| `Model/Paths` | `config_utils.expand_input_path` and posixpath's expanduser, abspath, normpath |
| `Model/Program` | `xylem install`, `update`, `resolve` as whole programs: from the command line and the config files to what happens on the machine |
| `Model/LookupProgram` | `xylem lookup` as a whole program |
| `Model/Commands` | `commands/*.py`, `log_utils.py`, `util.indent` |
| `Model/Reports` | what `sources/impl.py`, `sources/database.py` and `update.py` print |
| `Model/ProgramOutput` | the whole programs again, with everything that is printed |
| `Model/InstallOutput` | `install.py` and `package_manager_installer.py` with everything they print |
| `Model/Hook` | the exception hook of `util.py`, the end of the process |
| `Model/Help` | the formatter of help texts, the help texts of config options |
| `Model/Calls` | the API functions with their optional config, contexts and database |
| `Model/Text` | `terminal_color.py`, `exception.py` |
| `Model/Encoding` | `text_utils.py`, the text of exceptions in python 2, messages of `sources/database.py` and `sources/impl.py` |
| `Model/Util` | the context managers of `util.py` |
| `Spec/*` | small specifications independent of the model's helpers |
| `Lemmas/*` | helper lemmas |
| `Props/*` | the property theorems, each followed by a non-vacuity `example` |

Every definition of a model module cites the lines of `/repo/xylem` it models
and names its simplifications.

### General modelling conventions

* Python values that YAML's safe loader can produce are `PVal` (null, bool, int,
  text, list, dict, and an opaque `other` for floats, dates, sets, ...). Dict
  keys are `PKey`; as in Python `True` and `1` are the same key.
* Python exceptions are values of `Exc` (class only; messages are not modelled,
  except where the message *is* the behaviour, as in `exc_to_str` and `fmt`).
  A python function that may raise is `... → Except Exc α`.
* Python dicts are association lists in iteration order. Python 2's iteration
  order is arbitrary, therefore the theorems are stated per key (extensional),
  and where the order could matter there is an explicit permutation theorem.
* Code that acts on the outside world (files, processes, network) is a function
  on an explicit state; external answers (server responses, exit codes, outcome
  of an installer's check, `is_os()`, whether a file exists) are universally
  quantified parameters ("oracles"), so every theorem holds for all of them.
* Mutation and aliasing: most of the model treats dicts as values (a mutated dict is returned). The functions
  that mutate rules in place or copy them (expansion, compaction, lookup, merging) are modelled a second time on a
  memory of objects with identity (`Model/Heap*`), where a YAML alias is a second reference to one object. C92–C95
  relate both: on rules without aliases (more precisely: without a dict standing in two roles) the run in memory
  denotes the result of the run on trees (`C92_without_aliases`), so the tree model loses nothing there; where it
  would, the difference is a refutation theorem (`C92_two_roles_refuted`, `C93_shared_os_dict_refuted`).
  Likewise for configs: C108–C111 relate configs in memory to config trees.

### Not modelled

Log output other than what the commands, `resolve.py`, `install.py`, `plugin_utils.py`, `installers/impl.py`, `update.py`, `sources/database.py` and `sources/impl.py` print (lines printed only with `--debug` are left out, and those `install.py` and `package_manager_installer.py` print on stderr only with `--verbose`; what setting up prints is in `Model/ProgramOutput`), argparse's parser
(except for options and words: `Model/CommandLine` and `Model/Argv` state what the library does with them; `Model/Argv` was compared with python's argparse on 28000 random command lines), pkg_resources, the text of error messages, the YAML parser/emitter and pickle (assumed: dump then load is the
identity, an explicit hypothesis where used), sha1 (a parameter `idString`; the theorems do not assume it injective,
uniqueness of hashes is what the code checks), real subprocesses and the files operating system detectors read
(parameters), the debugger and profiler options, the test helpers of the repository.

## 2. Trusted base

* Lean 4.33.0's kernel, and the axioms `propext`, `Classical.choice`,
  `Quot.sound` (per theorem listing in section 4).
* That the model functions say what the cited Python lines do (by reading).
* The oracles named above.

## 3. Plan per property

Claims the code violates are kept in full in `properties.jsonl`; for these the model *refutes* the full statement
by a theorem (a universally quantified failure or a concrete witness) and proves the largest true part as a theorem
with suffix `_partial`. Every property is expressible in the model; none is `not_applicable`.

Rules data (`Model/RulesDict`, `Model/Expand`)

* C01, C02 lookup on typed rules; specification `Spec/Rules` gives the rule that applies by a relation; case analysis on the three levels.
* C04 permuting dict entries; by `dget_perm` at each level. C86 the same from the parsed file on (expansion, verification and lookup respect Python equality), by induction on values.
* C05 membership in `keys()` against the lookup relation.
* C06–C09, C13 expansion on values; loop lemma (`forItems_eq`) and induction on association lists; C08 by the equality of both expansions.
* C10–C12 verification as a decision procedure for `ValidRules` (`Spec/Expanded`), identifiers as lists of characters; C12 refuted at top level.
* C14–C16 compaction on typed rules; lookup in the re-expanded result agrees; C15 refuted by a witness, second round proved to be a fixed point.
* C17, C18 invariant of the merge loop: lookup in the combined dict is "new or else old"; C17 refuted for crashes, with the exact condition of success (`Props/MergeSucceeds`), merging in steps and merging equivalent rules (`Props/MergeMore`).
* C66 all malformed dicts, direct.
* C92–C95 memory model (see above): a simulation between run in memory and run on trees, with the footprint of writes; the result is the tree the final memory denotes.

Database and sources (`Model/Database`, `Model/Sources`)

* C03 induction on the list of sources. C24, C58, C59 opening the database from source lists.
* C19–C23 induction over sources with an explicit cache; a crash point is a prefix of the file system steps.
* C141 `load_from_source` and `save_to_cache` as loops like `update`; what happens is the run of a prefix plus the first source whose exception leaves the loop.
* C145 permutations of the lists of entry points: the loaded plugins are a permutation, contexts are alike (same os and core installers, permuted rest), so resolve, install and whole runs are equal; refuted for two additional installers; the conditions are proved for the builtin plugins.
* C142 loading plugins, the contexts and whole runs compared for two worlds that differ in disabled plugins; induction over the relation between the two lists of entry points.
* C143 the functions that make the contexts, the database and install_from from a config (Model/Program), compared with the values of its options.
* C21, C69, C70 write-then-load round trip. C25 cache housekeeping. C79 an interrupt at any point of an update.
* C26 induction on the retry counter with an arbitrary stream of responses.
* C64, C65 the API functions `update` and `lookup`.

Resolving and installing (`Model/Resolve`, `Model/Install`, `Model/Installers`)

* C27–C30, C41 induction on the list of keys with a per key relation (`Spec/Resolve`).
* C31–C38, C71, C75, C78 programs from machine state to result, state and list of events; installer methods are arbitrary state transformers; induction over the loops; C75 replays the events.
* C118 relational: a simulation and an installation from the same state side by side; until the loop over groups both are the same program, in the loop an induction with "executed is a prefix of shown". Words of commands that are not text (null packages) are part of the model.
* C121 the loop of installers and the filter loop when everything is installed; composed with C102 for the run before, and with C106 (same config) for two whole programs.
* C119, C120: the update loop with an explicit trace of messages and file system steps, shown to be the loop of C19 when the messages are dropped; induction over the sources with the set of origins seen.
* C39, C40, C56, C61, C62, C67, C68 the installer base classes and plugins; C39 composes resolve and install with the fake installer.

Plugins, operating systems (`Model/Setup`, `Model/OsSupport`, `Model/OsDetect`)

* C42, C43, C77 induction on lists of entry points and of installer entries; C77 with the builtin plugins and a loaded config; `Props/Disabled` for disabled builtin plugins.
* C44–C47, C76 fold invariant over detection; derived operating systems; version comparison.
* C87–C91 the detectors as functions of file contents and command output; specification of words in `Spec/OsDetect`; C89–C91 histories of operations on detector objects.

Configuration (`Model/Config`)

* C139, C140 `Written givens words` says how options are written; induction on it shows that the words are read as these options (`C139_words_as_options`), and
  induction on the words that every accepted line is of this form (`C139_accepted`); the theorems on whole programs then hold for all words.
* C144 the options are read up to the request for help or for the version; the error analysis of C140 (`refusals_end`) says which earlier word may end the program differently.
* C146 the reading functions again with a richer error type; accepted values by induction on the type, refused ones by the first failing element of each loop; `Misfit` (Spec) is the place. This is also the place where the opaque `other` values matter: everywhere else a value of the wrong type raises `ConfigValueError`, i.e. it is assumed to be showable.
* C147 the same functions on byte strings, compared with those on texts through the lemmas on UTF-8 of C113; elsewhere words of the command line are texts, i.e. it is assumed that they are in the class of C147_words_mean_their_text_partial.
* C148 `resolve` and `xylem lookup` with keys that are either texts or byte strings that are not ASCII; compared with the functions of C27–C30 and of C85 on texts by induction over the keys.
* C149 the announcement of commands (`Model/Install`, `Model/Text`): the first `@` of a command survives the replacements of `fmt` and decides what `substitute` does; then the run of `install_resolutions` up to this command.
* C150 dependencies: pairs of databases related by `SameButDepends`; the choice of an installer, the resolution of a key and the loop over the keys are shown to respect the relation; refuted, with a witness.
* C48–C50, C73, C74, C137, C138 structural induction on config types and lists of layers.
* C51, C52, C72 config files and descriptions built by any history of `add`. C53 directories. C54, C55 characters.
* C96, C97 parsers as lists of options, command lines as lists of given options; fold over the command line, namespaces compared attribute by attribute; C97 refuted for the argparse of python 2.7.9.
* C98, C99 `main` from parsed options to the call of the command as a function on the module variables; the config printed is the one loaded: every value of a loaded config is a fixed point of reading and covers its default, so loading the printed file gives it back.
* C100 paths as character lists; normalisation as a fold over the parts with a walk as specification; shows the assumptions of C98 on path expansion hold of the real expansion (`C98_reread_real_paths_partial`).

* C108–C111 configs as objects in memory (`Model/HeapConfig`): every function refines the one on trees and writes only to dicts it made (ownership of footprints); C108 an invariant over all programs that make, assign to and merge configs; C111 `deepcopy` with its memo, induction on the number of objects not copied yet.

Commands, messages (`Model/Commands`, `Model/Text`)

* C57, C63 induction on characters and on chains of exceptions.
* C60, C80, C81, C83, C84, C85 `main` and the commands as programs that print; exit status for every outcome.
* C101–C104 whole programs (`Model/Program`): command line, config files, setup and command composed; what is given is a relation on the command line (`Spec/Program`), the rest by the theorems on the parts.
* C105–C107 two programs run one after the other or side by side: equal common options give equal namespaces as far as the config is concerned, then the theorems on single runs are composed. C116, C117 likewise (`xylem lookup`: `Model/LookupProgram`).
* C112 blocks as arbitrary functions on a process state, `with` as a combinator; the attributes of the guarding objects are part of the state.
* C113, C114 UTF-8 by Lean's library functions, decoding as a fold with an arbitrary resynchronisation; exceptions as name and message, text or bytes. C115 the database loops again, with the forming of messages, compared with the loops of C19.
* C122–C125 the whole programs with all messages (`Model/ProgramOutput`); compared with the silent programs by a relation on programs that print (equal but for stderr), and with lists of messages written down in `Spec/ProgramOutput`.
* C126 splitting and dedenting modelled as scans, `textwrap.wrap` a parameter; paragraphs and blocks are defined by a relation (`Spec/Help`) shown to be functional, visible characters by a filter. C127 by cases.
* C130 by induction on the occurrences, against relations saying what a list or dict text is. C131–C133 programs that also say things (`Model/InstallOutput`): the silent program is recovered by forgetting what is said; what is said is compared with what was done before by induction over the commands (C132), and with the cases of `Spec/PmOutput` (C133).
* C22 (bytes), C135, C136 files as bytes, writes in any pieces, interleavings of any number of processes (`Model/CacheBytes`): refinement of the steps of `Model/Database`; invariants of interleavings; schedules as counterexamples.
* C134 the end of `main` composed with the interpreter; by cases, with C63 for the text.
* C128, C129 optional arguments as a three-valued type; equations between calls.
* C82 `_compact_rules_file` as a sequence of file system steps with crash points.

## 4. Theorem index and axioms

Generated by `tools/gen_index.py` from `#print axioms`. Letters after a theorem name the axioms it depends on:
`p` = `propext`, `c` = `Classical.choice`, `q` = `Quot.sound`; `-` = none. No other axiom occurs.

* **C01** Lookup precedence (proved)
  * `Props/Lookup.lean`: `C01_lookup_precedence` pq, `C01_lookup_exact` pq
* **C02** Lookup resolves default_installer (proved)
  * `Props/Lookup.lean`: `C02_lookup_fails_iff` cpq, `C02_no_default_keyword` pq
* **C03** First listed source wins (proved)
  * `Props/Database.lean`: `C03_first_source_wins` cpq, `C03_succeeds_iff` cpq
* **C04** Lookup does not depend on dict ordering (proved)
  * `Props/Lookup.lean`: `C04_lookup_order_independent` pq, `C04_ambiguous_order_matters` cpq
* **C05** keys() lists everything that can be looked up (proved)
  * `Props/Database.lean`: `C05_db_keys` cpq, `C05_db_keys_complete` cpq
  * `Props/Lookup.lean`: `C05_has_rule_complete` pq, `C05_has_rule_iff` pq, `C05_listed_key_may_be_empty` pq
* **C06** Expansion yields the canonical four-level structure (proved)
  * `Props/Expand.lean`: `C06_expanded_structure` cpq
* **C07** Expansion is idempotent (proved)
  * `Props/Expand.lean`: `C07_idempotent` cpq, `C07_fixed_points` pq
* **C08** Shorthand equivalence (proved)
  * `Props/Expand.lean`: `C08_shorthands` p, `C08_shorthands_version` p, `C08_shorthands_installer` p, `C08_any_os` p
  * `Props/ExpandMore.lean`: `C08_depends_shorthands` cpq
* **C09** Expansion is per key and per entry (proved)
  * `Props/Expand.lean`: `C09_per_key` pq, `C09_per_os` pq, `C09_per_version` pq, `C09_per_installer` pq, `C09_fails_iff` pq
  * `Props/ExpandMore.lean`: `C09_empty_file` p
* **C10** Verification accepts exactly the well-formed rules dicts (proved)
  * `Props/Verify.lean`: `C10_verify_iff_valid` cpq, `C10_only_valueError` cpq, `C10_installer_dict` cpq
* **C11** Identifier acceptance (proved)
  * `Props/Verify.lean`: `C11_identifier_iff` cpq, `C11_trailing_newline` cpq
* **C12** allow_default_installer is honoured by verification (partial)
  * `Props/Verify.lean`: `C12_flag_ignored` cpq, `C12_flag_honoured_below_partial` cpq
* **C13** any_os shorthand without installer is rejected on load (proved)
  * `Props/Expand.lean`: `C13_any_os_shorthand_rejected` cpq
* **C14** Compaction preserves lookup (proved)
  * `Props/Compact.lean`: `C14_compaction_preserves_lookup` cpq
* **C15** Compaction reaches a fixed point (partial)
  * `Props/Compact.lean`: `C15_second_round_shrinks` cpq, `C15_fixed_point_partial` cpq, `C15_second_round_is_fixed` cpq
* **C16** Compaction failure condition (proved)
  * `Props/Compact.lean`: `C16_fails_iff` cpq, `C16_keeps_rules` cpq
  * `Props/ExpandMore.lean`: `C16_file_succeeds_iff` cpq
* **C17** Merged rules look up like the list of rules (partial)
  * `Props/Merge.lean`: `C17_merged_lookup_partial` pq, `C17_merge_succeeds` pq, `C17_merge_crashes` cpq
  * `Props/MergeMore.lean`: `C17_in_steps` pq, `C17_equivalent_rules` pq
  * `Props/MergeSucceeds.lean`: `C17_merge_succeeds_iff` pq, `C17_merge_error` pq
* **C18** Merged rules mention only known operating systems and real installers (proved)
  * `Props/Merge.lean`: `C18_merged_known_os_and_installers` pq, `C18_merged_is_merge_input` pq
  * `Props/MergeMore.lean`: `C18_no_empty_key` pq
* **C19** Update isolates failing sources (proved)
  * `Props/Database.lean`: `C19_update_memory` cpq, `C19_update_cache` cpq, `C19_other_files_untouched` cpq
* **C20** Update aborts at the first failure when asked to raise (proved)
  * `Props/Database.lean`: `C20_raises_iff` cpq, `C20_first_failure` cpq, `C20_no_failure` cpq
* **C21** Update then load round trip (proved)
  * `Props/Cache.lean`: `C21_round_trip` cpq, `C21_round_trip_db` cpq
* **C22** Crash consistency of the cache (partial)
  * `Props/Cache.lean`: `C22_crash_contents_partial` cpq, `C22_at_most_one_damaged_partial` cpq, `C22_window_of_loss` cpq, `C22_recovery` cpq
  * `Props/Concurrent.lean`: `C22_bytes` pq, `C22_crash_at_any_byte` cpq
* **C23** Loaded sources are always verified (proved)
  * `Props/Cache.lean`: `C23_data_always_verified` cpq, `C23_rules_data` cpq, `C23_bad_cache_rejected` cpq
  * `Props/Opened.lean`: `C23_opened_database` cpq, `C23_opened_then_loaded` cpq
* **C24** Unique source ids (proved)
  * `Props/Cache.lean`: `C24_unique_ids` cpq, `C24_duplicates_refused` pq
  * `Props/Opened.lean`: `C24_opened_database` cpq
* **C25** Cache housekeeping API (partial)
  * `Props/Cache.lean`: `C25_outdated_check_crashes` cpq, `C25_clear_crashes` -, `C25_missing_is_outdated_partial` cpq
* **C26** Bounded download retries (proved)
  * `Props/Sources.lean`: `C26_bounded_retries` cpq, `C26_recovers` cpq, `C26_gives_up` cpq
* **C27** Resolve partitions the requested keys (proved)
  * `Props/Opened.lean`: `C27_all_keys_of_sources` cpq
  * `Props/Resolve.lean`: `C27_partition` cpq, `C27_exactly_once` cpq
* **C28** Installer choice (partial)
  * `Props/Resolve.lean`: `C28_installer_choice` cpq, `C28_first_core_installer_partial` cpq, `C28_first_additional_never_used` cpq, `C28_last_additional_witness` cpq
* **C29** install_from is honoured (proved)
  * `Props/Resolve.lean`: `C29_install_from` cpq
* **C30** Failure of one key does not affect the others (partial)
  * `Props/Opened.lean`: `C30_raises_exactly` cpq
  * `Props/Resolve.lean`: `C30_keys_independent_partial` cpq, `C30_raises_iff` cpq, `C30_one_failure_aborts_all` cpq
* **C31** Installation order and grouping (proved)
  * `Props/Install.lean`: `C31_grouping` pq, `C31_grouping_unique` pq, `C31_order_kept` pq
  * `Props/InstallRaises.lean`: `C31_planned_groups` cpq
* **C32** Simulation runs nothing (proved)
  * `Props/CommandFlags.lean`: `C32_dry_run_flag` cpq
  * `Props/Install.lean`: `C32_simulate_executes_nothing` cpq, `C32_simulate_changes_nothing` cpq
  * `Props/InstallExamples.lean`: `C32_simulate_may_fix` cpq
* **C33** Commands run in order and stop at the first failure (proved)
  * `Props/CommandFlags.lean`: `C33_without_flag` cpq
  * `Props/Install.lean`: `C33_stop_at_first_failure` cpq
* **C34** continue_on_error runs everything (partial)
  * `Props/CommandFlags.lean`: `C34_continue_flag_partial` cpq
  * `Props/Install.lean`: `C34_continue_runs_everything_partial` cpq, `C34_failures_reported` cpq
  * `Props/InstallExamples.lean`: `C34_unstartable_command_aborts` cpq, `C34_markup_in_command_aborts` cpq, `C34_compose_error_crashes` cpq
  * `Props/InstallReturns.lean`: `C34_returns_if_plugins_behave_partial` cpq
* **C35** No errors means installed (proved)
  * `Props/Install.lean`: `C35_no_errors_means_installed` cpq
  * `Props/InstallTrace.lean`: `C35_plugin_said_installed` cpq, `C35_installed_at_the_end` cpq
* **C36** Already installed packages are skipped (proved)
  * `Props/Install.lean`: `C36_only_uninstalled_planned` cpq
* **C37** Install reports resolve and check failures (partial)
  * `Props/Install.lean`: `C37_resolve_errors_reported_partial` cpq, `C37_failed_check_is_silent_success` cpq, `C37_check_failures_left_out` cpq
  * `Props/InstallExamples.lean`: `C37_silent_success_witness` cpq, `C37_continuing_witness` cpq
* **C38** Reinstall works (partial)
  * `Props/CommandFlags.lean`: `C38_reinstall_flag_refuted` cpq
  * `Props/Install.lean`: `C38_reinstall_never_works` cpq
  * `Props/InstallExamples.lean`: `C38_reinstall_witness` cpq
* **C39** Fake installer end to end (proved)
  * `Props/Fake.lean`: `C39_fake_end_to_end` cpq
* **C40** apt/homebrew/macports installs are verified (partial)
  * `Props/InstallTrace.lean`: `C40_always_reports_an_error` cpq, `C40_no_command_error_partial` cpq, `C40_witness` cpq
* **C41** Duplicate removal (proved)
  * `Props/Resolve.lean`: `C41_remove_duplicates` cpq
* **C42** Installer setup (proved)
  * `Props/Setup.lean`: `C42_installers` cpq, `C42_disjoint` cpq, `C42_succeeds_iff` cpq
  * `Props/SetupBuiltin.lean`: `C42_same_name_witness` cpq, `C42_null_core_installer` pq, `C42_null_options` cpq
* **C43** Plugin loading (partial)
  * `Props/Disabled.lean`: `C43_disabled_builtins` cpq
  * `Props/Setup.lean`: `C43_loaded` cpq, `C43_succeeds_iff_partial` cpq, `C43_import_failure_refuted` cpq, `C43_constructor_failure_refuted` cpq
* **C44** OS detection picks the most specific OS (proved)
  * `Props/OsSupport.lean`: `C44_detects_iff` cpq, `C44_raising_plugin` p, `C44_result_detects` pq, `C44_sets_current` pq, `C44_most_specific` cpq, `C44_nothing_more_specific` pq, `C44_unrelated_depends_on_order` cpq
* **C45** OS override (proved)
  * `Props/OsSupport.lean`: `C45_override_version` p, `C45_override_detects_version` p, `C45_refused` pq, `C45_lookup_os` cpq, `C45_setup_override` cpq, `C45_setup_detects` cpq, `C45_setup_fails` cpq
* **C46** Version comparison (proved)
  * `Props/OsSupport.lean`: `C46_follows_table` cpq, `C46_strict_total_order` cpq, `C46_builtin_tables` cpq
* **C47** OS tuples for derived operating systems (partial)
  * `Props/OsSupport.lean`: `C47_tuples_partial` cpq, `C47_first_and_names` cpq, `C47_builtin` cpq, `C47_unknown_version_accepted` cpq
* **C48** Configuration precedence (proved)
  * `Props/Config.lean`: `C48_merged_layers` cpq, `C48_loaded_config` cpq, `C48_command_line_wins` cpq, `C48_loading_succeeds` cpq
  * `Props/ConfigValues.lean`: `C48_declared_default` cpq, `C48_defaults_fit` cpq
* **C49** Merging is lawful (proved)
  * `Props/Config.lean`: `C49_associative` cpq, `C49_associative_left` cpq, `C49_unset_identity` cpq, `C49_idempotent` cpq
* **C50** Parsed config values are valid (proved)
  * `Props/ConfigFiles.lean`: `C50_accepted_values_verify` cpq, `C50_verification` cpq, `C50_reading` cpq, `C50_values_kept` pq, `C50_null_is_unset` p, `C50_command_line_values` cpq
  * `Props/ConfigValues.lean`: `C50_values_read` pq
* **C51** Config file keys (partial)
  * `Props/ConfigFiles.lean`: `C51_every_option` cpq, `C51_missing_is_unset` cpq, `C51_every_option_with_defaults` cpq, `C51_no_other_keys` cpq, `C51_unknown_keys_ignored` cpq, `C51_errors_partial` cpq, `C51_null_group_refuted` cpq, `C51_null_group_witness` cpq, `C51_empty_file` cpq, `C51_bad_files` pq
* **C52** Config description stays consistent (partial)
  * `Props/ConfigFiles.lean`: `C52_names_distinct` cpq, `C52_keys_distinct` cpq, `C52_add` cpq, `C52_arguments_refuted` cpq, `C52_arguments_partial` cpq, `C52_xylem_description` cpq
* **C53** Config, cache and sources directories (proved)
  * `Props/ConfigNames.lean`: `C53_config_directories` cpq, `C53_cache_and_sources` cpq, `C53_sources_beside_config` cpq
  * `Props/ProgramDirs.lean`: `C53_effective_directories` cpq
  * `Props/Startup.lean`: `C53_processed_config` cpq
* **C54** OS override string syntax (proved)
  * `Props/ConfigNames.lean`: `C54_name` p, `C54_name_version` p, `C54_name_features` cpq, `C54_name_version_features` cpq, `C54_exact` cpq
  * `Props/ConfigValues.lean`: `C54_effective_override` cpq
* **C55** Option name mangling (proved)
  * `Props/ConfigNames.lean`: `C55_mangling_inverse` pq, `C55_mangling_form` pq, `C55_split_group` cpq, `C55_no_group` cpq, `C55_dashdash` p
* **C56** Privilege elevation (proved)
  * `Props/Plugins.lean`: `C56_elevated_iff_needed` cpq, `C56_idempotent` p, `C56_empty_command_crashes` cpq, `C56_as_root_option` cpq, `C56_plugin_commands` cpq
* **C57** Sanitised messages survive formatting (partial)
  * `Props/Text.lean`: `C57_sanitized_shown` cpq, `C57_sanitized_reproduced_partial` cpq, `C57_no_color_drops_marks` cpq, `C57_placeholder` cpq, `C57_braced_placeholder` cpq, `C57_malformed` cpq, `C57_bold_text` cpq
* **C58** Source list files (partial)
  * `Props/Opened.lean`: `C58_opened_database_partial` cpq
  * `Props/Sources.lean`: `C58_source_files_partial` cpq, `C58_only_yaml_files` cpq, `C58_hidden_files_are_read` cpq, `C58_dot_directory_reads_nothing` cpq
* **C59** Source descriptions (proved)
  * `Props/Opened.lean`: `C59_rules_arguments` cpq
  * `Props/Sources.lean`: `C59_accepts_iff` cpq, `C59_single_description` pq, `C59_one_source_per_description` cpq, `C59_errors` cpq
* **C60** Exit codes (partial)
  * `Props/CommandFlags.lean`: `C60_own_exceptions` cpq
  * `Props/Commands.lean`: `C60_status_zero` cpq, `C60_xylem_error_exits_one` cpq, `C60_setup_errors_refuted` cpq, `C60_resolve_status` cpq, `C60_install_status` cpq, `C60_silent_success` cpq
* **C61** Prerequisite checks (partial)
  * `Props/Defaults.lean`: `C61_update_check` cpq
  * `Props/Plugins.lean`: `C61_continues_iff` pq, `C61_otherwise_prerequisite_error_partial` pq, `C61_general_check` cpq, `C61_fix_crashes` cpq, `C61_present_passes` cpq, `C61_fake_fix` cpq
* **C62** pip skips exactly the frozen packages (proved)
  * `Props/Plugins.lean`: `C62_pip_filter` cpq, `C62_pip_installed` cpq
* **C63** Chained errors are rendered root cause first (proved)
  * `Props/Text.lean`: `C63_root_cause_first` cpq, `C63_raise_from_keeps_cause` cpq
* **C64** dry_run update does not write (partial)
  * `Props/Api.lean`: `C64_dry_run_is_ignored` cpq, `C64_dry_run_writes` cpq, `C64_touches_only_cache_files_partial` cpq, `C64_ensure_cache_dir` p
* **C65** API lookup (partial)
  * `Props/Api.lean`: `C65_uncompacted_lookup_crashes` cpq, `C65_compact_lookup_partial` cpq
* **C66** Malformed rules files are reported as SpecParsingError (partial)
  * `Props/Expand.lean`: `C66_malformed_is_typeError` cpq, `C66_witness` p
* **C67** Resolutions can be compared and hashed (partial)
  * `Props/Installers.lean`: `C67_equality_partial` cpq, `C67_equivalence_partial` cpq, `C67_hash_always_raises` pq, `C67_hash_iff` pq, `C67_resolved_unhashable` cpq
* **C68** One resolution per package (proved)
  * `Props/Installers.lean`: `C68_one_resolution_per_package` cpq, `C68_depends` cpq
* **C69** Loading from the cache keeps a source's identity (partial)
  * `Props/Cache.lean`: `C69_identity_lost` cpq, `C69_identity_kept_partial` cpq
* **C70** Update then look up in a new process (proved)
  * `Props/Api.lean`: `C70_update_then_lookup` cpq, `C70_end_to_end` cpq
* **C71** Prerequisites are checked before anything is installed (proved)
  * `Props/InstallChecks.lean`: `C71_prerequisites_checked_first` cpq
* **C72** Command line options do not share values (partial)
  * `Props/ConfigNames.lean`: `C72_distinct_destinations_partial` cpq, `C72_shared_destination_refuted` cpq, `C72_xylem_destinations` cpq
* **C73** A dict passed as config works like a config file (partial)
  * `Props/ConfigNames.lean`: `C73_config_argument` cpq, `C73_dict_config` cpq, `C73_dict_config_unprocessed_refuted` cpq
* **C74** Effective config values can be read again (proved)
  * `Props/ConfigReread.lean`: `C74_reading_again` pq
* **C75** An installation changes the machine only by the recorded calls (proved)
  * `Props/InstallTrace.lean`: `C75_events_account_for_everything` cpq
* **C76** Built-in operating systems are detected correctly (proved)
  * `Props/OsSupport.lean`: `C76_lsb` cpq, `C76_osx` cpq, `C76_other_os` cpq
* **C77** Builtin setup end to end (proved)
  * `Props/Defaults.lean`: `C77_default_table` cpq, `C77_default_installers` cpq
  * `Props/SetupBuiltin.lean`: `C77_builtin_installers` cpq, `C77_linux` cpq, `C77_osx` cpq, `C77_settings_from_config` cpq
* **C78** Exceptions leaving an installation (partial)
  * `Props/InstallRaises.lean`: `C78_raises_for_a_reason` cpq, `C78_never_swallowed` cpq, `C78_planning_error_witness` cpq
* **C79** Interrupting an update (proved)
  * `Props/Interrupt.lean`: `C79_interrupted_update` cpq
* **C80** What the commands print (partial)
  * `Props/Announce.lean`: `C80_announcement` cpq, `C80_shown_command` cpq
  * `Props/CommandOutput.lean`: `C80_error_message_lines` pq, `C80_resolve_output` cpq, `C80_line_tells_key` cpq, `C80_resolution_text` cpq, `C80_builtin_resolutions_shown` cpq, `C80_null_package_crashes_refuted` cpq, `C80_install_output` cpq
* **C81** Exit status of update (partial)
  * `Props/CommandMisc.lean`: `C81_failed_update_exits_zero_refuted` cpq, `C81_update_status_partial` cpq
* **C82** Compacting a rules file in place (partial)
  * `Props/CompactFile.lean`: `C82_touched_only_if` cpq, `C82_written` cpq, `C82_crash_contents` cpq, `C82_crash_loses_rules_refuted` cpq, `C82_settles` cpq, `C82_settled_file` cpq, `C82_ends` cpq
  * `Props/Defaults.lean`: `C82_current_os` cpq
* **C83** Command plugins (partial)
  * `Props/CommandMisc.lean`: `C83_commands` cpq, `C83_broken_plugin_refuted` cpq
* **C84** Stand-alone commands (partial)
  * `Props/CommandMisc.lean`: `C84_standalone_always_fails_refuted` p
* **C85** What lookup prints (proved)
  * `Props/CommandMisc.lean`: `C85_lookup_output` cpq
* **C86** The order of entries in a rules file does not matter (proved)
  * `Props/Order.lean`: `C86_equal_files` cpq, `C86_reordered` cpq, `C86_order_decides_refuted` cpq
* **C87** Operating system detectors (partial)
  * `Props/Detectors.lean`: `C87_marker_files` cpq, `C87_uname` cpq, `C87_windows` cpq, `C87_lsb_registered` cpq, `C87_osx` cpq, `C87_release_files` cpq, `C87_opensuse_codename` cpq
  * `Props/OsDetect.lean`: `C87_wrong_os` cpq, `C87_rhel_version` cpq, `C87_redhat_codename` cpq, `C87_fedora_version` cpq, `C87_gentoo_version` cpq, `C87_opensuse_version` cpq, `C87_lsb` cpq, `C87_other_exceptions_refuted` cpq
* **C88** ROS_OS_OVERRIDE (proved)
  * `Props/OsDetect.lean`: `C88_override` cpq, `C88_empty_override` cpq
* **C89** Registered detectors take precedence (partial)
  * `Props/OsDetect.lean`: `C89_last_listed_wins_partial` cpq, `C89_added_detector_never_wins_refuted` cpq, `C89_get_detector` cpq, `C89_default_list` cpq
* **C90** OsDetect objects are independent (partial)
  * `Props/OsDetect.lean`: `C90_own_list_partial` cpq, `C90_own_list_only_partial` cpq, `C90_made_with_list_partial` cpq, `C90_shared_list_refuted` cpq
* **C91** Detecting again (partial)
  * `Props/OsDetect.lean`: `C91_detected_iff` cpq, `C91_name_kept` cpq, `C91_stale_override_refuted` cpq
* **C92** YAML aliases in rules files (partial)
  * `Props/Aliases.lean`: `C92_aliases_written_out_partial` cpq, `C92_without_aliases` cpq, `C92_two_roles_refuted` cpq
* **C93** YAML aliases and compaction (partial)
  * `Props/AliasesCompact.lean`: `C93_compaction_written_out_partial` cpq, `C93_without_aliases` cpq, `C93_shared_os_dict_refuted` cpq
* **C94** Lookups leave the loaded rules alone (proved)
  * `Props/HeapMerge.lean`: `C94_lookup_rules` pq, `C94_lookups_are_repeatable` cpq, `C94_result_is_new` cpq, `C94_rules_are_shared` cpq
* **C95** merge_rules copies its inputs down to the installer dicts (proved)
  * `Props/HeapMerge.lean`: `C95_merge_rules` pq, `C95_result_structure` cpq
* **C96** Command line values reach exactly their option (partial)
  * `Props/CommandLine.lean`: `C96_values_arrive` cpq, `C96_switches` cpq, `C96_texts` cpq, `C96_accepted_iff` cpq, `C96_abbreviations` cpq, `C96_xylem_command_line` cpq, `C96_slash_refuted` cpq, `C96_config_dir_refuted` cpq
* **C97** Options may be given before or after the command name (partial)
  * `Props/CommandLine.lean`: `C97_options_before_command_ignored_refuted` cpq, `C97_options_before_command_partial` cpq
* **C98** --print-config prints the effective config (partial)
  * `Props/Paths.lean`: `C98_reread_real_paths_partial` cpq
  * `Props/Startup.lean`: `C98_print_config` cpq, `C98_config_set` cpq, `C98_reread_partial` cpq, `C98_reread_override_refuted` cpq
* **C99** Global switches and messages (partial)
  * `Props/Startup.lean`: `C99_switches_partial` cpq, `C99_new_process` cpq, `C99_program` cpq, `C99_second_call_refuted` cpq, `C99_messages` cpq, `C99_last_call_decides` pq
* **C100** Paths in the configuration (proved)
  * `Props/Paths.lean`: `C100_expansion` cpq, `C100_normal_unchanged` cpq, `C100_same_place` cpq, `C100_home` cpq, `C100_user_home` cpq, `C100_directories` cpq
* **C101** The flags of xylem install, from the command line to the machine (partial)
  * `Props/Program.lean`: `C101_dry_run` cpq, `C101_fix_only_if_given` cpq, `C101_stops_at_first_failure` cpq, `C101_nothing_happens` cpq, `C101_reinstall_refuted` cpq, `C101_continue_on_error_partial` cpq
* **C102** Exit status 0 of xylem install means installed (partial)
  * `Props/Program.lean`: `C102_status_zero` cpq, `C102_exit_status_zero_means_installed_partial` cpq
  * `Props/Success.lean`: `C102_no_errors_means_installed_partial` cpq, `C102_failed_check_refuted` cpq, `C102_no_commands_refuted` cpq
  * `Props/SuccessShipped.lean`: `C102_shipped_plugins_partial` cpq, `C102_shipped_installed_partial` cpq
* **C103** xylem update and the directories given (partial)
  * `Props/ProgramDirs.lean`: `C103_directory_given` cpq, `C103_update_stays_in_cache_dir` cpq, `C103_update_reads_sources_dir` cpq, `C103_update_dry_run_refuted` cpq
* **C104** xylem --os decides the operating system (proved)
  * `Props/ProgramDirs.lean`: `C104_os_given` cpq
* **C105** xylem update, then another command (proved)
  * `Props/Session.lean`: `C105_update_then_command` cpq
* **C106** Common options mean the same to all commands (partial)
  * `Props/Session.lean`: `C106_same_config` cpq, `C106_abbreviations_refuted` cpq
* **C107** xylem resolve shows what xylem install works on (proved)
  * `Props/ResolveInstall.lean`: `C107_resolve_run` cpq, `C107_install_works_on_it` cpq
* **C108** Configs do not influence each other or the defaults (partial)
  * `Props/HeapConfig.lean`: `C108_default_config` cpq, `C108_defaults_stay_partial` cpq, `C108_assignments` cpq
  * `Props/HeapConfigExamples.lean`: `C108_shared_default_refuted` cpq
* **C109** Merging configs leaves them alone (proved)
  * `Props/HeapConfig.lean`: `C109_merge_configs` cpq
  * `Props/HeapConfigExamples.lean`: `C109_values_shared` cpq
* **C110** Making a config from a dict or from files leaves everything else alone (proved)
  * `Props/HeapConfig.lean`: `C110_ensure_config` cpq, `C110_ensure_config_same` cpq, `C110_load_config` cpq
* **C111** copy_to_dict makes an independent copy (proved)
  * `Props/HeapCopy.lean`: `C111_copy_to_dict` cpq
* **C112** Context managers put back what they change (partial)
  * `Props/Util.lean`: `C112_change_directory_partial` pq, `C112_runs_inside` -, `C112_cannot_enter` pq, `C112_default_argument_refuted` pq, `C112_original_gone_refuted` pq, `C112_original_replaced_refuted` pq, `C112_nested` pq, `C112_same_object_refuted` pq, `C112_temporary_directory_partial` pq, `C112_rmtree_refuted` pq, `C112_redirected_stdio_partial` pq, `C112_captured` cpq, `C112_stdio_nested` cpq, `C112_stdio_same_object_refuted` pq
* **C113** Text and bytes convert faithfully (partial)
  * `Props/Encoding.lean`: `C113_text_survives` cpq, `C113_bytes_survive_iff` cpq, `C113_valid_part_kept` cpq, `C113_damage_visible` cpq, `C113_idempotent` cpq, `C113_total` cpq, `C113_type_name` cpq, `C113_bytes_of_objects` cpq, `C113_objects_partial` cpq, `C113_objects_refuted` cpq, `C113_printed_text` cpq, `C113_printed_injective` cpq, `C113_lists_look_alike_refuted` cpq, `C113_lists_partial` cpq
* **C114** Exceptions can always be shown, with their message (partial)
  * `Props/Encoding.lean`: `C114_raises_iff` cpq, `C114_ascii_message_partial` cpq, `C114_other_message_refuted` cpq, `C114_chain` cpq
* **C115** Reporting a failing source does not disturb the others (partial)
  * `Props/Messages.lean`: `C115_update_partial` cpq, `C115_update_refuted` cpq, `C115_load_from_cache_partial` cpq, `C115_load_from_cache_refuted` cpq, `C115_source_list_partial` cpq, `C115_source_list_refuted` cpq
* **C116** Everything resolve shows is installed after a successful install (proved)
  * `Props/ShownInstalled.lean`: `C116_shown_is_installed` cpq
* **C117** lookup shows the rules resolve chooses from (proved)
  * `Props/LookupProgram.lean`: `C117_lookup_run` cpq, `C117_resolve_uses_shown` cpq, `C117_after_update` cpq
* **C118** A dry run shows what the installation will do (proved)
  * `Props/DryRun.lean`: `C118_dry_run_foretells` cpq, `C118_shipped_plan_ahead` cpq, `C118_shows_the_plan` cpq, `C118_dry_run_output` cpq, `C118_null_package_witness` cpq, `C118_simulation_finds_nulls` cpq
* **C119** What update prints (proved)
  * `Props/OpenReport.lean`: `C119_opened` cpq, `C119_same_ending` cpq, `C119_update_output` cpq
  * `Props/UpdateReport.lean`: `C119_same_update` cpq, `C119_update_report` cpq, `C119_silent_iff_updated` cpq, `C119_under_own_file` cpq
* **C120** What opening the database prints (proved)
  * `Props/OpenReport.lean`: `C120_same_database` cpq, `C120_opening_output` cpq, `C120_stdout` cpq, `C120_directories` cpq
* **C121** Installing again does nothing (proved)
  * `Props/InstallAgain.lean`: `C121_nothing_to_install` cpq, `C121_install_again` cpq, `C121_shipped_exact` cpq, `C121_shipped` cpq
  * `Props/InstallAgainProgram.lean`: `C121_run_again` cpq
* **C122** Results are not mixed with messages (proved)
  * `Props/ProgramOutput.lean`: `C122_resolve_stdout` cpq, `C122_install_stdout` cpq, `C122_lookup_stdout` cpq, `C122_update_stdout` cpq
* **C123** Verbose output leaves stdout alone (partial)
  * `Props/ProgramOutput.lean`: `C123_verbose_line_refuted` cpq, `C123_nothing_else_partial` cpq, `C123_lookup_line_per_key_refuted` cpq
* **C124** Setting up reports every problem (proved)
  * `Props/ResolveMessages.lean`: `C124_missing_core_installers` cpq, `C124_osx_complains` cpq, `C124_database_messages` cpq
  * `Props/SetupMessages.lean`: `C124_plugin_messages` cpq, `C124_context_messages` cpq, `C124_unknown_options` cpq, `C124_unknown_rule_keys` cpq
* **C125** Resolving says what it chose and what it ignored (proved)
  * `Props/ProgramOutputExamples.lean`: `C125_several_messages_witness` cpq
  * `Props/ResolveMessages.lean`: `C125_resolve_messages` cpq, `C125_found_names_installer` cpq, `C125_complete_output` cpq
* **C126** Layout of help texts (partial)
  * `Props/Help.lean`: `C126_layout` pq, `C126_nothing_lost` cpq, `C126_width` pq, `C126_raw_partial` cpq, `C126_joined` pq, `C126_raw_after_newline_refuted` cpq
  * `Props/HelpWords.lean`: `C126_words_stay_apart` pq
* **C127** Help entries name the config entry (proved)
  * `Props/Help.lean`: `C127_config_entry` cpq, `C127_type_and_default` cpq, `C127_xylem_names` cpq
* **C128** Contexts passed to the API (partial)
  * `Props/Calls.lean`: `C128_same_as_made` cpq, `C128_lookup_and_update` cpq, `C128_commands_call_the_api` cpq, `C128_wrong_context` cpq, `C128_only_install_from` cpq, `C128_message_refuted` cpq
* **C129** A plain dict as config (partial)
  * `Props/Calls.lean`: `C129_plain_dict_partial` cpq, `C129_plain_dict_refuted` cpq
* **C130** Command line values of options mean what their help says (proved)
  * `Props/ConfigArgs.lean`: `C130_lists` pq, `C130_dicts` pq, `C130_plain_values` p
* **C131** Being verbose does not change an installation (proved)
  * `Props/InstallOutput.lean`: `C131_same_installation` cpq, `C131_stderr_only` cpq, `C131_quiet` cpq, `C131_program` cpq, `C131_complete_output` cpq
* **C132** What is said about an installation is true (proved)
  * `Props/InstallOutput.lean`: `C132_success_is_true` cpq, `C132_return_codes` cpq, `C132_summary` cpq
* **C133** Messages of the checks of package managers (partial)
  * `Props/PmOutput.lean`: `C133_same_check` cpq, `C133_missing` cpq, `C133_present` cpq, `C133_nothing_to_say` cpq, `C133_failure_is_said` cpq, `C133_outdated_which_refuted` cpq, `C133_on_stderr` cpq
* **C134** Errors that end the program are shown with their causes (partial)
  * `Props/Hook.lean`: `C134_command_error` cpq, `C134_setup_error` cpq, `C134_no_error` cpq, `C134_debugger` cpq, `C134_debugger_switch` cpq, `C134_other_scripts_refuted` cpq
* **C135** Updates running at the same time (partial)
  * `Props/Concurrent.lean`: `C135_finished_partial` cpq, `C135_loads_partial` cpq, `C135_pieces_mix` pq, `C135_mixture_refuted` cpq, `C135_directory_there_partial` pq, `C135_directory_partial` cpq, `C135_directory_refuted` p, `C135_directory_alone` p
* **C136** Using the cache while it is updated (partial)
  * `Props/Concurrent.lean`: `C136_meanwhile_partial` cpq, `C136_one_writer_partial` cpq, `C136_empty_file_refuted` cpq
  * `Props/ReadPieces.lean`: `C136_read_in_pieces_partial` cpq, `C136_read_in_pieces_refuted` cpq
* **C137** The options of xylem are as documented (proved)
  * `Props/XylemOptions.lean`: `C137_options_documented` cpq, `C137_loaded_options` cpq, `C137_defaults` cpq
* **C138** Converting a plain dict to a config dict (partial)
  * `Props/ConfigNames.lean`: `C138_unchanged_partial` p, `C138_result_lost_refuted` p
* **C139** The words of the command line are read as written (proved)
  * `Props/Argv.lean`: `C139_words_as_options` cpq, `C139_wrong_number_of_keys` cpq, `C139_behind_dashes` cpq
  * `Props/ArgvAccepted.lean`: `C139_accepted` cpq
  * `Props/ArgvCompact.lean`: `C139_write_needs_word` cpq, `C139_write_word` cpq
  * `Props/ArgvProgram.lean`: `C139_run_of_words` cpq, `C139_run_behind_dashes` cpq, `C139_every_run` cpq
  * `Props/ArgvWords.lean`: `C139_dry_run_word` cpq, `C139_fix_needs_word` cpq, `C139_wrong_number_of_keys_run` cpq
* **C140** Options may stand anywhere, and bad command lines are usage errors (partial)
  * `Props/Argv.lean`: `C140_keys_apart_refuted` cpq
  * `Props/ArgvWords.lean`: `C140_keys_apart_run_refuted` cpq, `C140_refusals_partial` cpq, `C140_empty_value_refuted` cpq
* **C141** Loading and saving the database separately (partial)
  * `Props/SaveLoad.lean`: `C141_save_raises_iff` cpq, `C141_save_first_failure` cpq, `C141_save_skips` cpq, `C141_load_from_source` pq, `C141_load_and_save_is_update` cpq, `C141_unloaded_destroys_cache_refuted` cpq, `C141_failed_download_refuted` cpq
* **C142** A disabled plugin might as well not be installed (proved)
  * `Props/Uninstalled.lean`: `C142_as_if_uninstalled` cpq, `C142_same_contexts` cpq, `C142_broken_module` cpq
* **C143** The commands obey the options of the config (proved)
  * `Props/ConfigUsed.lean`: `C143_install_from` cpq, `C143_one_os` cpq, `C143_override` cpq, `C143_installers` cpq, `C143_features` cpq
* **C144** Asking for help or for the version (proved)
  * `Props/AskHelp.lean`: `C144_only_if_asked` cpq, `C144_help` cpq, `C144_help_of_command` cpq
* **C145** The order in which plugins are found does not matter (partial)
  * `Props/PluginOrder.lean`: `C145_whatever_order_partial` cpq, `C145_same_contexts_partial` cpq
  * `Props/PluginOrderBuiltin.lean`: `C145_builtin_plugins` cpq, `C145_builtin_program` cpq, `C145_additional_refuted` cpq
* **C146** A refused configuration value is named (partial)
  * `Props/ConfigMessages.lean`: `C146_same_verdict` cpq, `C146_blames_first` cpq, `C146_something_to_blame` cpq, `C146_message_partial` cpq, `C146_binary_refuted` cpq, `C146_verify_chain` pq, `C146_verify_accepts` pq
* **C147** Words of the command line that are not ASCII (partial)
  * `Props/ArgBytes.lean`: `C147_words_mean_their_text_partial` cpq, `C147_words_refuted` cpq, `C147_brackets` cpq, `C147_texts` cpq
* **C148** Keys that are not ASCII (partial)
  * `Props/KeyBytes.lean`: `C148_ascii_keys_partial` cpq, `C148_other_keys_refuted` cpq, `C148_decode_error_refuted` cpq, `C148_lookup_ascii_partial` cpq, `C148_lookup_refuted` cpq
* **C149** Packages may have any name (partial)
  * `Props/PackageNames.lean`: `C149_not_run_refuted` cpq, `C149_no_colour_refuted` cpq, `C149_whole_installation_refuted` cpq, `C149_simulated_refuted` cpq, `C149_run_partial` cpq, `C149_one_mark_partial` cpq, `C149_homebrew_witness` cpq
* **C150** Keys that a rule depends on (partial)
  * `Props/Depends.lean`: `C150_resolve_ignores_depends_refuted` cpq, `C150_install_ignores_depends_refuted` cpq, `C150_depends_known_partial` cpq, `C150_witness` cpq
