{"id": "C01", "title": "Lookup precedence", "statement": "For a key/os/version and each installer name, the rule returned by a rules lookup is one offered at the most specific level that offers that installer: the exact version entry, else the os's any_version entry, else any_os/any_version; an installer is present in the result iff some level offers it.", "quantifier": "every rules dict, key, os, version, default installer name, installer name", "why_tests_cant": "the precedence must hold for every combination of present/absent entries on three levels; tests fix a handful", "anchors": ["xylem/sources/rules_dict.py:lookup_rules", "xylem/sources/rules_dict.py:merge_installer_dict"]}
{"id": "C02", "title": "Lookup resolves default_installer", "statement": "The installer dict returned by a lookup never contains the keyword default_installer (unless the default's own name is that keyword), and the lookup fails exactly when one of the consulted entries uses default_installer and no non-empty default installer name is configured.", "quantifier": "every rules dict, key, os, version and optional default name", "why_tests_cant": "failure condition is an iff over all dict contents", "anchors": ["xylem/sources/rules_dict.py:lookup_rules", "xylem/sources/rules_dict.py:replace_default_installer"]}
{"id": "C03", "title": "First listed source wins", "statement": "Looking up a key in a database of sources returns, for each installer, the rule of the first listed source whose own lookup has that installer, and contains exactly the union of the installers of the individual lookups.", "quantifier": "every list of sources of any length, every key and installer", "why_tests_cant": "unbounded number of sources and every overlap pattern", "anchors": ["xylem/sources/database.py:RulesDatabase.lookup", "xylem/sources/database.py:RulesSource.lookup"]}
{"id": "C04", "title": "Lookup does not depend on dict ordering", "statement": "Reordering the entries of any dict level of the rules data does not change what a lookup returns for any installer, provided no installer dict names both default_installer and the default installer itself (with both names the result does depend on order).", "quantifier": "every rules dict and every permutation of entries at each level", "why_tests_cant": "python 2 dict order is arbitrary; tests see one order", "anchors": ["xylem/sources/rules_dict.py:lookup_rules", "xylem/sources/rules_dict.py:merge_installer_dict"]}
{"id": "C05", "title": "keys() lists everything that can be looked up", "statement": "Every key whose lookup on the current os is non-empty is in the key list of the source and of the database; conversely a listed key has an any_os entry, or an entry for this os with this version or any_version. (A listed key may still have an empty lookup when its installer dicts are empty.) The database key list has no duplicates.", "quantifier": "every rules data, os tuple, list of sources", "why_tests_cant": "completeness over all keys/all data", "anchors": ["xylem/sources/rules_dict.py:has_rule_for_os", "xylem/specs/plugins/rules.py:RulesSpec.keys", "xylem/sources/database.py:RulesDatabase.keys"]}
{"id": "C06", "title": "Expansion yields the canonical four-level structure", "statement": "If expanding a parsed rules file succeeds, the result is dict of os dicts of version dicts of installer dicts of rule dicts, any_os entries have exactly the version any_version, and in every rule packages is never null or a bare string and depends is never null, a bare string or an empty list.", "quantifier": "every parsed YAML value (any nesting, any types)", "why_tests_cant": "the input space is all YAML documents", "anchors": ["xylem/specs/plugins/rules.py:expand_rules", "xylem/specs/plugins/rules.py:expand_os_version_definition", "xylem/specs/plugins/rules.py:expand_installer_definition", "xylem/specs/plugins/rules.py:expand_definition"]}
{"id": "C07", "title": "Expansion is idempotent", "statement": "Expanding an already expanded rules dict succeeds and returns it unchanged.", "quantifier": "every YAML value on which expansion succeeds", "why_tests_cant": "must hold for all documents", "anchors": ["xylem/specs/plugins/rules.py:expand_rules"]}
{"id": "C08", "title": "Shorthand equivalence", "statement": "null, a bare string, a list, and the explicit any_version/default_installer/packages forms of the same definition expand to the same rules for every os other than any_os; an any_os entry without any_version is read as an installer dict.", "quantifier": "every os name, package list, version dict", "why_tests_cant": "a family of equations over all package lists", "anchors": ["xylem/specs/plugins/rules.py:expand_os_version_definition", "xylem/specs/plugins/rules.py:expand_installer_definition", "xylem/specs/plugins/rules.py:expand_definition"]}
{"id": "C09", "title": "Expansion is per key and per entry", "statement": "Expansion of a rules file keeps exactly the same key/os names and expands every entry independently of all the others; it fails iff some entry fails.", "quantifier": "every rules dict", "why_tests_cant": "unbounded entries", "anchors": ["xylem/specs/plugins/rules.py:expand_rules", "xylem/specs/plugins/rules.py:expand_os_definition"]}
{"id": "C10", "title": "Verification accepts exactly the well-formed rules dicts", "statement": "Verification of rules data succeeds iff the data is a 4-level dict with valid identifiers at each level, no default_installer under any_os, text rule keys, list-valued packages, and list-valued depends whose elements are valid keys; otherwise it raises ValueError and nothing else.", "quantifier": "every python value that YAML can produce", "why_tests_cant": "iff over an infinite domain; soundness and completeness", "anchors": ["xylem/sources/rules_dict.py:verify_rules_dict", "xylem/sources/rules_dict.py:verify_os_dict", "xylem/sources/rules_dict.py:verify_version_dict", "xylem/sources/rules_dict.py:verify_installer_dict", "xylem/sources/rules_dict.py:verify_installer_rule"]}
{"id": "C11", "title": "Identifier acceptance", "statement": "A key/os/version/installer name is accepted iff it is text, is not a keyword reserved for another position, and is 'mountain lion' or a non-empty run of word characters, dot, right quote, plus, dash — with, because of the regular expression's '$', optionally one trailing newline (so the documented charset is violated by 'foo\\n').", "quantifier": "every python value and every string", "why_tests_cant": "all strings", "anchors": ["xylem/sources/rules_dict.py:verify_rules_dict_identifier"]}
{"id": "C12", "title": "allow_default_installer is honoured by verification", "statement": "Verifying rules data with default installers disallowed rejects data that uses default_installer anywhere. (Violated at the top level: verify_rules_dict drops the argument; holds for the os/version/installer level functions.)", "quantifier": "every rules data and flag", "why_tests_cant": "relation between flag and all data", "anchors": ["xylem/sources/rules_dict.py:verify_rules_dict", "xylem/sources/rules_dict.py:verify_os_dict"]}
{"id": "C13", "title": "any_os shorthand without installer is rejected on load", "statement": "A rules file whose any_os entry is a null, a string or a list never becomes loaded data: it expands to a default_installer under any_os, which verification rejects.", "quantifier": "every rules file containing such an entry, whatever else it contains", "why_tests_cant": "all documents with one bad entry", "anchors": ["xylem/specs/plugins/rules.py:expand_os_version_definition", "xylem/sources/rules_dict.py:verify_os_dict", "xylem/specs/plugins/rules.py:RulesSpec.load_data"]}
{"id": "C14", "title": "Compaction preserves lookup", "statement": "If expanded and verified rules are compacted (with the default installer table) and expanded again, every lookup with the os's default installer gives equal rules for every installer.", "quantifier": "every verified rules dict, default installer table, key, os, version, installer", "why_tests_cant": "semantic equivalence over all rules dicts", "anchors": ["xylem/specs/plugins/rules.py:compact_rules", "xylem/specs/plugins/rules.py:expand_rules", "xylem/sources/rules_dict.py:lookup_rules"]}
{"id": "C15", "title": "Compaction reaches a fixed point", "statement": "Compacting rules, expanding and compacting again gives the same file. (Violated when a version equal to any_version is dropped; then a second round still shrinks the file.)", "quantifier": "every rules dict", "why_tests_cant": "all rules dicts", "anchors": ["xylem/specs/plugins/rules.py:compact_version_dict"]}
{"id": "C16", "title": "Compaction failure condition", "statement": "Compacting an installer dict fails iff a default installer is given and the dict has both default_installer and that default's name; otherwise it keeps every rule.", "quantifier": "every installer dict and default", "why_tests_cant": "iff over all dicts", "anchors": ["xylem/specs/plugins/rules.py:compact_installer_dict"]}
{"id": "C17", "title": "Merged rules look up like the list of rules", "statement": "Looking up any key/known os/version in the rules merged from a list gives for each installer the rule of the first rules dict in the list whose own lookup has it. (The merge additionally crashes with ValueError when two dicts both have any_version for an os and the earlier one uses default_installer there: the stated merging behaviour is violated for those.)", "quantifier": "every list of verified rules dicts, default table, key, os, version, installer", "why_tests_cant": "refinement between two algorithms over all lists", "anchors": ["xylem/sources/rules_dict.py:merge_rules", "xylem/sources/rules_dict.py:merge_os_dict", "xylem/sources/rules_dict.py:merge_version_dict"]}
{"id": "C18", "title": "Merged rules mention only known operating systems and real installers", "statement": "Every os entry of merged rules is any_os or in the default installer table, no installer named default_installer survives (when the table's names are not that keyword), and no key maps to an empty os dict.", "quantifier": "every list of rules dicts and default table", "why_tests_cant": "all lists", "anchors": ["xylem/sources/rules_dict.py:merge_rules", "xylem/sources/rules_dict.py:copy_os_dict"]}
{"id": "C19", "title": "Update isolates failing sources", "statement": "With raise_on_error off, a database update that is not interrupted (C79) attempts every source in order, never raises, and the cache file and in-memory data of each source depend only on that source's own download: a source that fails to load keeps its previous data and previous cache file.", "quantifier": "every list of sources with distinct ids, every pattern of download/parse/verify/save failures", "why_tests_cant": "2^n failure patterns, unbounded n", "anchors": ["xylem/sources/database.py:RulesDatabase.update"]}
{"id": "C20", "title": "Update aborts at the first failure when asked to raise", "statement": "With raise_on_error on, an update raises iff some source fails, exactly the sources before the first failing one have been saved, and later sources are untouched.", "quantifier": "every list of sources and failure pattern", "why_tests_cant": "all failure positions", "anchors": ["xylem/sources/database.py:RulesDatabase.update"]}
{"id": "C21", "title": "Update then load round trip", "statement": "After an update in which a source was loaded and saved, a fresh database with the same sources loading from the cache obtains exactly the data that was downloaded, and hence answers every lookup identically.", "quantifier": "every list of sources with distinct ids and download results", "why_tests_cant": "all histories of update/load", "anchors": ["xylem/sources/database.py:RulesSource.save_to_cache", "xylem/sources/database.py:RulesSource.load_from_cache"]}
{"id": "C22", "title": "Crash consistency of the cache", "statement": "If the process dies at any point during an update, every source's cache file is either its old content or its new content. (Violated: the file being written is truncated in place, so one crash point leaves one unreadable file; at most that one file is affected.)", "quantifier": "every crash point of an update of any number of sources", "why_tests_cant": "crash points are not reachable by unit tests", "anchors": ["xylem/sources/database.py:_write_cache", "xylem/sources/database.py:RulesDatabase.update"]}
{"id": "C23", "title": "Loaded sources are always verified", "statement": "Whatever the cache directory contains, after load_from_cache or load_from_source the in-memory data of a source is unset/unchanged or passes verification; cached data with the wrong structure or spec name is rejected with an error.", "quantifier": "every cache content and download", "why_tests_cant": "all cache corruptions", "anchors": ["xylem/sources/database.py:RulesSource.load_from_cache", "xylem/sources/database.py:_verify_cache_data_structure"]}
{"id": "C24", "title": "Unique source ids", "statement": "A database is only ever created if all its sources have distinct cache identifiers; then distinct sources use distinct cache files (assuming only that the join of the cache dir and a file name is injective in the name).", "quantifier": "every list of source descriptions", "why_tests_cant": "all lists", "anchors": ["xylem/sources/database.py:RulesDatabase.verify_unique_ids", "xylem/sources/database.py:_cache_file_path"]}
{"id": "C25", "title": "Cache housekeeping API", "statement": "Checking whether a source's cache is outdated and clearing it work for every source. (Violated: the outdated check raises TypeError whenever a readable cache file exists, clear_cache raises TypeError always; both leave the cache untouched.)", "quantifier": "every source and cache state", "why_tests_cant": "states of the cache", "anchors": ["xylem/sources/database.py:RulesSource.is_cache_outdated", "xylem/sources/database.py:RulesSource.clear_cache"]}
{"id": "C26", "title": "Bounded download retries", "statement": "Downloading a url performs at least one and at most retry+1 requests, retries only on HTTP 503 or socket timeout, returns the first successful body, fails with DownloadFailure when the last attempt ended in an HTTP or URL error, and passes other exceptions on unchanged.", "quantifier": "every sequence of server responses, every retry count (also negative)", "why_tests_cant": "all response schedules", "anchors": ["xylem/load_url.py:load_url"]}
{"id": "C27", "title": "Resolve partitions the requested keys", "statement": "A successful resolve returns each requested key (and, with all-keys, each database key) exactly once, in request order, either among the resolved keys or among the errors.", "quantifier": "every key list with duplicates, every database and installer configuration", "why_tests_cant": "all lists and failure patterns", "anchors": ["xylem/resolve.py:resolve", "xylem/util.py:remove_duplicates"]}
{"id": "C28", "title": "Installer choice", "statement": "Without install_from, a resolvable key is resolved with the first core installer that has a rule; additional installers are used only if no core installer has one. Among additional installers the one listed first is chosen. (Violated: the last matching additional installer is chosen.)", "quantifier": "every lookup result and installer configuration", "why_tests_cant": "all installer lists", "anchors": ["xylem/resolve.py:resolve"]}
{"id": "C29", "title": "install_from is honoured", "statement": "A key listed in install_from is resolved with exactly that installer or reported as an error; it is never resolved by another installer, and in case of conflicting install_from entries the first one wins.", "quantifier": "every install_from list, lookup result", "why_tests_cant": "all conflicting lists", "anchors": ["xylem/resolve.py:resolve"]}
{"id": "C30", "title": "Failure of one key does not affect the others", "statement": "The outcome of resolving a key depends only on that key, its install_from entry and the rules, not on the other requested keys.", "quantifier": "every pair of requests sharing a key", "why_tests_cant": "relational property over two runs", "anchors": ["xylem/resolve.py:resolve"]}
{"id": "C31", "title": "Installation order and grouping", "statement": "Resolutions of consecutive keys resolved to the same installer are grouped; the concatenation of the groups is the concatenation of the resolutions in key order, adjacent groups have different installers and no group boundary is lost.", "quantifier": "every list of resolved keys", "why_tests_cant": "all lists", "anchors": ["xylem/install.py:_squash_resolutions"]}
{"id": "C32", "title": "Simulation runs nothing", "statement": "With simulate set, no installer command is executed, whatever the other options; only the prerequisite fixing of package managers may act (which violates a pure dry-run).", "quantifier": "every input, config, world", "why_tests_cant": "absence of effects over all runs", "anchors": ["xylem/install.py:install_resolutions", "xylem/install.py:install_resolved"]}
{"id": "C33", "title": "Commands run in order and stop at the first failure", "statement": "Without continue_on_error the executed commands are a prefix of the planned commands in order, ending at the first failing one; no command after a failing one is executed.", "quantifier": "every plan and every exit code schedule", "why_tests_cant": "all exit code schedules", "anchors": ["xylem/install.py:install_resolutions"]}
{"id": "C34", "title": "continue_on_error runs everything", "statement": "With continue_on_error every planned command is executed exactly once in order, whatever fails, and every failure is reported.", "quantifier": "every plan and exit code schedule", "why_tests_cant": "all schedules", "anchors": ["xylem/install.py:install_resolutions"]}
{"id": "C35", "title": "No errors means installed", "statement": "If a non-simulated installation reports no errors, every planned item passes the installer's own installed check when it was verified, right after the last of its commands.", "quantifier": "every plan, world and exit code schedule", "why_tests_cant": "soundness over all runs", "anchors": ["xylem/install.py:install_resolutions", "xylem/installers/installer_base.py:InstallerBase.is_installed"]}
{"id": "C36", "title": "Already installed packages are skipped", "statement": "Without reinstall, only items the installer reports as uninstalled are planned, in order; if an installer's check fails with InstallerError its items are kept and an error is recorded, and other groups are unaffected.", "quantifier": "every list of groups and check outcome", "why_tests_cant": "all failure patterns", "anchors": ["xylem/install.py:filter_uninstalled"]}
{"id": "C37", "title": "Install reports resolve and check failures", "statement": "An install whose resolution or installed-check failed reports at least one error. (Violated: when the installed-check fails and continue_on_error is off, install returns only the resolve errors and nothing is installed — a silent success.)", "quantifier": "every request and failure pattern", "why_tests_cant": "all failure patterns", "anchors": ["xylem/install.py:install"]}
{"id": "C38", "title": "Reinstall works", "statement": "Installing with reinstall set installs all resolved packages. (Violated: with reinstall the installation crashes with UnboundLocalError before executing any command, for every non-failing resolve.)", "quantifier": "every request with reinstall", "why_tests_cant": "universally quantified crash", "anchors": ["xylem/install.py:install"]}
{"id": "C39", "title": "Fake installer end to end", "statement": "Installing with the fake installer creates exactly the missing package files, reports no error if every touch succeeds, and running the same installation again executes nothing.", "quantifier": "every package list (distinct plain names) and initial file system", "why_tests_cant": "all lists, idempotence of two runs", "anchors": ["xylem/installers/plugins/fake.py", "xylem/install.py:install_resolved"]}
{"id": "C40", "title": "apt/homebrew/macports installs are verified", "statement": "A successful installation via apt, homebrew or macports is reported without errors. (Violated: these plugins' installed check always says no, so any real installation of at least one package reports an error even when every command succeeded.)", "quantifier": "every non-empty package list and world where commands succeed", "why_tests_cant": "universally quantified", "anchors": ["xylem/installers/plugins/apt.py", "xylem/installers/plugins/homebrew.py", "xylem/installers/plugins/macports.py"]}
{"id": "C41", "title": "Duplicate removal", "statement": "remove_duplicates keeps exactly the set of elements, keeps each once, in order of first occurrence, and is idempotent.", "quantifier": "every list", "why_tests_cant": "all lists", "anchors": ["xylem/util.py:remove_duplicates"]}
{"id": "C42", "title": "Installer setup", "statement": "The core installers are those named in the config (or by the current os) that are loaded, in that order; unknown names are reported and skipped; additional installers are exactly the loaded non-core plugins that opt in, only if enabled; no installer is both core and additional.", "quantifier": "every plugin list, config and os", "why_tests_cant": "all configurations", "anchors": ["xylem/installers/impl.py:InstallerContext.setup_installers"]}
{"id": "C43", "title": "Plugin loading", "statement": "Loaded plugins have distinct names; each is the first valid, enabled entry point with its name, in entry point order; disabled or invalid entries never appear and never prevent others from loading.", "quantifier": "every list of entry points and disabled list", "why_tests_cant": "all lists of entry points", "anchors": ["xylem/plugin_utils.py:load_plugins"]}
{"id": "C44", "title": "OS detection picks the most specific OS", "statement": "Unless a plugin's own check raises (then detection raises the same), detection succeeds if some plugin detects the machine, else it raises UnsupportedOSError; the result is a detecting plugin; if one detecting plugin derives from all other detecting plugins it is chosen irrespective of plugin order.", "quantifier": "every list and order of OS plugins", "why_tests_cant": "all plugin orders", "anchors": ["xylem/os_support/impl.py:OSSupport.detect_os"]}
{"id": "C45", "title": "OS override", "statement": "Overriding with a known os name and known version (or no version) yields that name, version, and options; unknown names or versions raise the respective error and leave the current os unchanged.", "quantifier": "every plugin list, name, version, options", "why_tests_cant": "all inputs", "anchors": ["xylem/os_support/impl.py:OSSupport.override_os", "xylem/os_support/impl.py:OSOverride"]}
{"id": "C46", "title": "Version comparison", "statement": "Comparison of os versions is a strict total order on the known versions following the release table, and unknown versions raise an error.", "quantifier": "every version list without duplicates and all pairs/triples of versions", "why_tests_cant": "order axioms over all tables", "anchors": ["xylem/os_support/os_base.py:version_order_from_list", "xylem/os_support/plugins.py"]}
{"id": "C47", "title": "OS tuples for derived operating systems", "statement": "The list of os tuples of an os starts with its own name and version and maps each further name through its version mapping table; unknown versions raise.", "quantifier": "every table and version", "why_tests_cant": "all tables", "anchors": ["xylem/os_support/plugins.py:_OSDetecorBase.get_all_tuples"]}
{"id": "C48", "title": "Configuration precedence", "statement": "For every config option the effective value is the one from the command line if given, else from the first of user/system config files that sets it, else the default; for merging dict options this holds per dict key.", "quantifier": "every option set and every pattern of set/unset layers", "why_tests_cant": "all layer combinations", "anchors": ["xylem/config_utils.py:merge_configs", "xylem/config_utils.py:load_config"]}
{"id": "C49", "title": "Merging is lawful", "statement": "Merging config layers is associative with the unset value as identity, and merging a config with itself changes nothing.", "quantifier": "every config value of every type", "why_tests_cant": "algebraic laws", "anchors": ["xylem/config_utils.py:ConfigType.merge", "xylem/config_utils.py:MergingDict.merge"]}
{"id": "C50", "title": "Parsed config values are valid", "statement": "A value accepted when reading a YAML config file for an option passes the verification of that option's type; invalid values raise only config errors.", "quantifier": "every YAML value and every config type (nested)", "why_tests_cant": "all values and nested types", "anchors": ["xylem/config_utils.py:ConfigType.from_yaml", "xylem/config_utils.py:ConfigType.verify"]}
{"id": "C51", "title": "Config file keys", "statement": "A YAML config file yields an entry for every described option, set exactly where the file sets it, ignores/report unknown keys; a null file is the empty config. (Violated for a group present with null value: AttributeError.)", "quantifier": "every YAML mapping and description", "why_tests_cant": "all files", "anchors": ["xylem/config_utils.py:config_from_parsed_yaml"]}
{"id": "C52", "title": "Config description stays consistent", "statement": "A config description never holds two options with the same name, config file key or command line argument. (Violated: the duplicate-argument error is raised after the option was added.)", "quantifier": "every sequence of add calls", "why_tests_cant": "all histories of additions", "anchors": ["xylem/config_utils.py:ConfigDescription.add"]}
{"id": "C53", "title": "Config, cache and sources directories", "statement": "The directories to read configuration from are: only the given one if given; else user then system; system only if user config is disabled; cache and source dirs follow the documented decision table, command line over environment over default.", "quantifier": "every combination of arguments and environment", "why_tests_cant": "decision table over all strings", "anchors": ["xylem/config_utils.py:load_config", "xylem/config_utils.py:handle_global_config_arguments", "xylem/config.py:process_config"]}
{"id": "C54", "title": "OS override string syntax", "statement": "Parsing name, name:version, name:version&f1,f2 and name&f1,f2 gives back exactly the parts, for parts free of the separator characters.", "quantifier": "every name, version and feature list", "why_tests_cant": "round trip over all strings", "anchors": ["xylem/config.py:parse_os_override"]}
{"id": "C55", "title": "Option name mangling", "statement": "Turning an option name into a config/command line key and back is the identity for names without dashes and slashes (resp. underscores and slashes), and splitting an option name at its last slash into group and name is inverse to joining.", "quantifier": "every string", "why_tests_cant": "all strings", "anchors": ["xylem/config_utils.py:dashify", "xylem/config_utils.py:underscorify", "xylem/config_utils.py:split_group"]}
{"id": "C56", "title": "Privilege elevation", "statement": "Commands of an installer are prefixed with sudo iff the installer needs root and the process is not root; elevating is idempotent and leaves the rest of the command intact.", "quantifier": "every command list", "why_tests_cant": "all commands", "anchors": ["xylem/installers/installer_base.py:elevate_privileges", "xylem/installers/installer_base.py:InstallerBase.get_install_commands"]}
{"id": "C57", "title": "Sanitised messages survive formatting", "statement": "Formatting a sanitised message with ansi markup reproduces the message followed by the reset code. (Violated for messages with braces, which come out doubled; unsanitised messages with @ raise.)", "quantifier": "every string", "why_tests_cant": "all strings", "anchors": ["xylem/terminal_color.py:sanitize", "xylem/terminal_color.py:fmt"]}
{"id": "C58", "title": "Source list files", "statement": "Only visible regular files ending in .yaml in the sources dir are read. (Violated: hidden .yaml files are read when the directory path does not start with a dot, and nothing is read when it does.)", "quantifier": "every directory path and listing", "why_tests_cant": "all listings", "anchors": ["xylem/sources/impl.py:_load_sources"]}
{"id": "C59", "title": "Source descriptions", "statement": "A parsed source list is accepted iff it is a list of single-entry dicts with text keys (or an empty dict or text), otherwise ValueError; each accepted description yields one source with the spec of that name or UnknownSpecError.", "quantifier": "every parsed YAML value", "why_tests_cant": "iff on all values", "anchors": ["xylem/sources/impl.py:verify_source_description_list", "xylem/sources/impl.py:verify_source_description"]}
{"id": "C60", "title": "Exit codes", "statement": "The resolve and install commands exit with status 0 iff no errors were reported, and every xylem error is turned into exit status 1.", "quantifier": "every outcome of the api functions", "why_tests_cant": "all outcomes", "anchors": ["xylem/commands/resolve.py", "xylem/commands/install.py", "xylem/commands/main.py"]}
{"id": "C61", "title": "Prerequisite checks", "statement": "When the package manager is not installed, installing continues only if fixing was requested, attempted and verified to have succeeded; otherwise an InstallerPrerequisiteError is raised, and with fix disabled nothing is modified. An outdated package manager never fails the check; it is updated only if fixing was requested, and a failing update surfaces.", "quantifier": "every state of the package manager, outcome of the fix, and options", "why_tests_cant": "all outcome combinations", "anchors": ["xylem/installers/package_manager_installer.py:PackageManagerInstaller"]}
{"id": "C62", "title": "pip skips exactly the frozen packages", "statement": "The pip installer's uninstalled filter returns, in order, exactly the requested packages whose name is not a name part of a line of pip freeze output.", "quantifier": "every freeze output and package list", "why_tests_cant": "all outputs", "anchors": ["xylem/installers/plugins/pip.py"]}
{"id": "C63", "title": "Chained errors are rendered root cause first", "statement": "Rendering a chained exception lists every exception of the chain once, root cause first, and raising from keeps the cause.", "quantifier": "chains of any length", "why_tests_cant": "unbounded chain", "anchors": ["xylem/exception.py:exc_to_str", "xylem/exception.py:chain_exception"]}
{"id": "C64", "title": "dry_run update does not write", "statement": "An update with dry_run leaves the cache untouched. (Violated: dry_run is ignored, every loadable source is saved.)", "quantifier": "every source list", "why_tests_cant": "universally quantified", "anchors": ["xylem/update.py:update"]}
{"id": "C65", "title": "API lookup", "statement": "The lookup API function returns rules of every known key, compact or not. (Violated: compact=False raises UnboundLocalError for every request reaching that point.)", "quantifier": "every key list and database", "why_tests_cant": "universally quantified", "anchors": ["xylem/lookup.py:lookup"]}
{"id": "C66", "title": "Malformed rules files are reported as SpecParsingError", "statement": "Expanding a malformed rules dict raises SpecParsingError naming the key. (Violated: constructing that exception itself raises TypeError, because SpecParsingError is not a ValueError.)", "quantifier": "every malformed rules dict", "why_tests_cant": "all malformed documents", "anchors": ["xylem/specs/plugins/rules.py:expand_rules", "xylem/specs/plugins/rules.py:SpecParsingError"]}
{"id": "C67", "title": "Resolutions can be compared and hashed", "statement": "Two resolutions are equal iff they have equal values for the same attributes, and equal resolutions have equal hashes. (Violated: hashing always raises TypeError.)", "quantifier": "every pair of resolutions", "why_tests_cant": "all pairs", "anchors": ["xylem/installers/installer_base.py:Resolution"]}
{"id": "C68", "title": "One resolution per package", "statement": "Resolving an installer rule with the common package-list installer gives one resolution per listed package in order, a missing list counting as empty; rules whose package or dependency list is malformed are rejected with InvalidRuleError.", "quantifier": "every installer rule", "why_tests_cant": "all rules", "anchors": ["xylem/installers/installer_base.py:InstallerBase.resolve", "xylem/installers/installer_base.py:InstallerBase._parse_installer_rule"]}
{"id": "C69", "title": "Loading from the cache keeps a source's identity", "statement": "After loading from the cache a source still has the arguments it was configured with, so it keeps its cache file. (Violated: load_from_cache adopts the arguments stored in the file without verifying them, so a file with other arguments changes the source's identity and its next save goes to another file or crashes.)", "quantifier": "every cache file content and source", "why_tests_cant": "all file contents", "anchors": ["xylem/sources/database.py:RulesSource.load_from_cache"]}
{"id": "C70", "title": "Update then look up in a new process", "statement": "After an update in which every source was downloaded and saved, a lookup through the API in a new process returns, in compact notation, for every installer the rule of the first listed source whose downloaded rules have one — whatever the cache contained before.", "quantifier": "every set of source list files, downloads, previous cache content, key, os, version", "why_tests_cant": "composition over all histories; unit tests check the parts in isolation", "anchors": ["xylem/update.py:update", "xylem/lookup.py:lookup", "xylem/sources/database.py:RulesDatabase"]}
{"id": "C71", "title": "Prerequisites are checked before anything is installed", "statement": "No command is planned or executed before the general prerequisites of every installer involved, and the prerequisites of exactly the items each installer is going to install, have been checked successfully; no check happens afterwards.", "quantifier": "every request, option set, installer behaviour and machine", "why_tests_cant": "ordering of effects over all runs", "anchors": ["xylem/install.py:install", "xylem/install.py:check_general_prerequisites", "xylem/install.py:check_install_prerequisites"]}
{"id": "C72", "title": "Command line options do not share values", "statement": "Giving one option on the command line never sets another option: different options take their value from different places of the parsed arguments. (Violated in general: arguments that differ only in dashes and underscores are accepted as different but share their value; holds for xylem's own options.)", "quantifier": "every config description", "why_tests_cant": "all descriptions", "anchors": ["xylem/config_utils.py:ConfigDescription.add", "xylem/config_utils.py:config_from_args", "xylem/config_utils.py:underscorify"]}
{"id": "C73", "title": "A dict passed as config works like a config file", "statement": "API functions accept None, a config, or a plain dict as config; a plain dict has the effect of a config file with these contents. (Violated: the result is not post-processed, so the source and cache directories are None unless given and the os override stays an unparsed string.)", "quantifier": "every dict passed as config", "why_tests_cant": "all dicts", "anchors": ["xylem/config.py:ensure_config", "xylem/config.py:process_config"]}
{"id": "C74", "title": "Effective config values can be read again", "statement": "Writing a loaded value to a config file and reading it again gives the same value.", "quantifier": "every config type (nested arbitrarily) and value", "why_tests_cant": "unbounded nesting", "anchors": ["xylem/config_utils.py:ConfigType.from_yaml", "xylem/config_utils.py:handle_global_config_arguments_post"]}
{"id": "C75", "title": "An installation changes the machine only by the recorded calls", "statement": "Everything an installation does is accounted for: replaying the recorded events (commands run, plugin checks, filters and plans, with their recorded outcomes) on the loaded plugins and the machine leads from the initial to the final state, so nothing else changed the machine and every recorded outcome was really given by the plugin or machine in the state of that moment.", "quantifier": "every request, option set, installer behaviour and machine", "why_tests_cant": "all histories", "anchors": ["xylem/install.py:install"]}
{"id": "C76", "title": "Built-in operating systems are detected correctly", "statement": "On a machine with LSB information the built-in os plugins, in any order, detect exactly the os of the reported distribution with its codename as version, and UnsupportedOSError for other distributions; on OS X they detect osx with the codename of a known 10.x release or raise UnsupportedOSVersionError; asking a built-in os that is not the current one for its version raises UnsupportedOSVersionError.", "quantifier": "every platform answer (LSB triple, sw_vers output) and plugin order", "why_tests_cant": "all platform answers", "anchors": ["xylem/os_support/plugins.py:Ubuntu", "xylem/os_support/os_detect.py:LsbDetect", "xylem/os_support/os_detect.py:OSX"]}
{"id": "C77", "title": "Builtin setup end to end", "statement": "With the builtin plugins registered in any order and the default options, Debian, Ubuntu and Xubuntu give the os tuple (name, codename), apt as only core installer and pip as only additional installer; on OS X the core installers are homebrew and pip, gem is reported as not found and there is no additional installer. The table of default installers has apt for the first three and homebrew for OS X. Every config that is loaded gives settings this setup can work with.", "quantifier": "every order of the registered plugins, every codename, every loaded config", "why_tests_cant": "composition over all configurations and entry point orders", "anchors": ["xylem/installers/impl.py:InstallerContext.setup_installers", "xylem/os_support/impl.py:OSSupport", "setup.py"]}
{"id": "C78", "title": "Exceptions leaving an installation", "statement": "If an installation raises, the exception is explained by the last thing that happened: a failing prerequisite check or a command that cannot be started surface as they are, an unexpected failure of an installer plugin while checking what is installed, planning or verifying surfaces as XylemInternalError; nothing happens afterwards and no such failure is ever swallowed by an installation that returns. (Violated: an InstallerError raised while planning surfaces as UnboundLocalError.)", "quantifier": "every request, option set, installer behaviour and machine", "why_tests_cant": "all histories and failure points", "anchors": ["xylem/install.py:install", "xylem/install.py:install_resolutions", "xylem/install.py:filter_uninstalled"]}
{"id": "C79", "title": "Interrupting an update", "statement": "If the user interrupts an update (KeyboardInterrupt, or SystemExit), it ends at the source where the interrupt arrived even when errors are not to be raised: sources before it were processed exactly as without the interrupt, later sources are untouched in memory and in the cache, and the cache file of the interrupted source is unchanged, unreadable or complete.", "quantifier": "every list of sources, outcome of every download and write, interruption point", "why_tests_cant": "all interruption points", "anchors": ["xylem/sources/database.py:RulesDatabase.update", "xylem/sources/database.py:RulesSource.save_to_cache"]}
{"id": "C80", "title": "What the commands print", "statement": "xylem resolve prints on stdout one line per resolved key, in order, naming the key, the installer if it is not the default or was asked for, and every resolution; errors appear in one message on stderr, line by line and in order; xylem install prints resolve errors and installation errors on stderr. (Violated: a null in a package list is accepted but cannot be shown, resolve ends with a TypeError traceback.)", "quantifier": "every list of keys, every database, every error text", "why_tests_cant": "output format over all inputs", "anchors": ["xylem/commands/resolve.py:main", "xylem/commands/install.py:main", "xylem/terminal_color.py", "xylem/log_utils.py"]}
{"id": "C81", "title": "Exit status of update", "statement": "xylem update exits with status 0 iff everything was updated. (Violated: failed downloads and failed writes still exit with status 0; proved: the status is 0 iff cache directory and source lists could be set up and no interrupt ended the loop.)", "quantifier": "every set of sources and outcomes of downloads and writes", "why_tests_cant": "all combinations of failures", "anchors": ["xylem/commands/update.py:main", "xylem/update.py:update", "xylem/sources/database.py:RulesDatabase.update"]}
{"id": "C82", "title": "Compacting a rules file in place", "statement": "_compact_rules_file changes the file only with --write and only after the new text is complete; the new file loads and every lookup on it agrees with the old file; a crash leaves the old text or a beginning of the new one; from the second run on the file stays as it is; an interrupt ends it with exit code 1, silently. (Violated as far as crash safety goes: after a crash the old rules can be lost and the empty file loads without complaint.)", "quantifier": "every rules file, default installer table, write behaviour and crash point", "why_tests_cant": "all files and crash points", "anchors": ["xylem/commands/_compact_rules_file.py:main", "xylem/specs/plugins/rules.py:compact_rules"]}
{"id": "C83", "title": "Command plugins", "statement": "Every command plugin is available under its title, of plugins with the same entry point name the first counts and of equal titles the last; the help lists exactly the commands not starting with an underscore; a broken plugin does not affect the others. (Last part violated: one broken command plugin makes every command end with a traceback.)", "quantifier": "every list of registered entry points", "why_tests_cant": "all plugin combinations", "anchors": ["xylem/commands/main.py:create_subparsers", "xylem/commands/main.py:load_command_definition"]}
{"id": "C84", "title": "Stand-alone commands", "statement": "The stand-alone scripts (xylem-update) behave as the corresponding subcommand. (Violated: they always end with an exception.)", "quantifier": "every command definition", "why_tests_cant": "all definitions and arguments", "anchors": ["xylem/commands/main.py:create_command_parser", "xylem/commands/main.py", "setup.py"]}
{"id": "C85", "title": "What lookup prints", "statement": "xylem lookup prints one block per given key, in the given order, up to the first key that cannot be looked up; the exit status is 0 iff there is no such key.", "quantifier": "every list of keys, database and outcome", "why_tests_cant": "all inputs", "anchors": ["xylem/commands/lookup.py:main"]}
{"id": "C86", "title": "The order of entries in a rules file does not matter", "statement": "Two rules files whose parsed contents are equal, in particular the same file with its entries rearranged at any depth, either both fail to load or both load and give the same rules in every lookup, unless one installer dict names both default_installer and the default installer itself (then iteration order decides).", "quantifier": "every pair of equal parsed files, key, os, version and default installer", "why_tests_cant": "unbounded nesting and all permutations", "anchors": ["xylem/specs/plugins/rules.py:expand_rules", "xylem/sources/rules_dict.py:verify_rules_dict", "xylem/sources/rules_dict.py:lookup_rules"]}
{"id": "C87", "title": "Operating system detectors", "statement": "A detector of os_detect asked for version or codename on another os raises OsNotDetected; on its own os it gives the version and codename written in the release files (openSUSE, Fedora, Red Hat, Gentoo) or reported by the platform. (Violated for unusual files: exceptions of other kinds, e.g. IndexError from is_os for a release file with the single word Gentoo.)", "quantifier": "every content of the files and program outputs", "why_tests_cant": "all file contents", "anchors": ["xylem/os_support/os_detect.py:OsDetector", "xylem/os_support/os_detect.py:Rhel", "xylem/os_support/os_detect.py:Fedora", "xylem/os_support/os_detect.py:Gentoo", "xylem/os_support/os_detect.py:OpenSuse", "xylem/os_support/os_detect.py:LsbDetect"]}
{"id": "C88", "title": "ROS_OS_OVERRIDE", "statement": "OsDetect.detect_os answers with the parts name:version:codename of ROS_OS_OVERRIDE if that is set (missing parts empty, further parts ignored), whatever was detected before; an empty name is reported as OsNotDetected.", "quantifier": "every value of the variable, detector list and object history", "why_tests_cant": "all strings and histories", "anchors": ["xylem/os_support/os_detect.py:OsDetect.detect_os"]}
{"id": "C89", "title": "Registered detectors take precedence", "statement": "A detector added with add_detector or register_default takes precedence over those registered before. (Violated: detection does not stop at the first match, so an added detector never wins against an older one that detects its os; only get_detector honours the order.)", "quantifier": "every list of detectors", "why_tests_cant": "all detector lists", "anchors": ["xylem/os_support/os_detect.py:OsDetect.detect_os", "xylem/os_support/os_detect.py:OsDetect.add_detector", "xylem/os_support/os_detect.py:OsDetect.register_default", "xylem/os_support/os_detect.py:OsDetect.get_detector"]}
{"id": "C90", "title": "OsDetect objects are independent", "statement": "A detector added to one OsDetect object is used by this object only. (Violated for objects made without a list: they share the list of the class.)", "quantifier": "every pair of objects and detector", "why_tests_cant": "aliasing between all objects", "anchors": ["xylem/os_support/os_detect.py:OsDetect.add_detector", "xylem/os_support/os_detect.py:OsDetect.__init__"]}
{"id": "C91", "title": "Detecting again", "statement": "A new OsDetect object finds an os iff one of its detectors detects its os; once found, get_name keeps answering with it; detect_os reports what is detected at the time of the call. (Last part violated: after an override, a later detection that finds nothing answers with the old override.)", "quantifier": "every detector list, environment and sequence of two calls", "why_tests_cant": "object histories", "anchors": ["xylem/os_support/os_detect.py:OsDetect.detect_os", "xylem/os_support/os_detect.py:OsDetect.get_name"]}
{"id": "C92", "title": "YAML aliases in rules files", "statement": "A rules file with YAML anchors and aliases, which the parser turns into shared objects that expansion modifies in place, loads exactly as the file with every alias written out. (Violated: a dict aliased into two different roles, e.g. a version dict that is also an installer dict under any_os, is expanded twice or not at all; proved for files where no dict has two roles, in particular for files without aliases.)", "quantifier": "every object graph the YAML parser can build", "why_tests_cant": "all sharing patterns and nesting depths", "anchors": ["xylem/specs/plugins/rules.py:expand_rules", "xylem/specs/plugins/rules.py:expand_os_definition", "xylem/specs/plugins/rules.py:expand_os_version_definition", "xylem/specs/plugins/rules.py:expand_installer_definition", "xylem/specs/plugins/rules.py:expand_definition"]}
{"id": "C93", "title": "YAML aliases and compaction", "statement": "_compact_rules_file makes of a rules file with YAML anchors and aliases what it makes of the file with every alias written out. (Violated: if two keys share their os dict, the dict is compacted twice and the command ends with an AttributeError; proved for all other files in which no dict has two roles.)", "quantifier": "every object graph the YAML parser can build and table of default installers", "why_tests_cant": "all sharing patterns", "anchors": ["xylem/specs/plugins/rules.py:compact_rules", "xylem/specs/plugins/rules.py:compact_os_dict", "xylem/specs/plugins/rules.py:compact_version_dict", "xylem/specs/plugins/rules.py:compact_installer_dict", "xylem/commands/_compact_rules_file.py:main"]}
{"id": "C94", "title": "Lookups leave the loaded rules alone", "statement": "Looking up keys changes none of the loaded rules, also when the lookup fails: after any sequence of lookups the next one answers what a first lookup answers. The returned dict is a new one, adding or removing installers in it does not affect the database. This holds however the loaded rules share dicts (YAML aliases). (The installer rules in the answer are those of the database, not copies.)", "quantifier": "every memory graph of loaded rules, list of sources and sequence of lookups", "why_tests_cant": "all histories and sharing patterns", "anchors": ["xylem/sources/rules_dict.py:lookup_rules", "xylem/sources/rules_dict.py:merge_installer_dict", "xylem/sources/database.py:RulesDatabase.lookup", "xylem/sources/database.py:RulesSource.lookup"]}
{"id": "C95", "title": "merge_rules copies its inputs down to the installer dicts", "statement": "merge_rules changes none of its inputs, also when it fails midway, even if they share dicts or one dict is given twice; all dicts of the result down to the installer dicts are new and separate from one another, the installer rules are the objects of the inputs (as documented).", "quantifier": "every list of memory graphs of rules dicts and table of default installers", "why_tests_cant": "all sharing patterns", "anchors": ["xylem/sources/rules_dict.py:merge_rules", "xylem/sources/rules_dict.py:merge_os_dict", "xylem/sources/rules_dict.py:merge_version_dict", "xylem/sources/rules_dict.py:copy_os_dict", "xylem/sources/rules_dict.py:copy_version_dict", "xylem/sources/rules_dict.py:copy_installer_dict", "xylem/sources/rules_dict.py:remove_rule_for_all_os", "xylem/sources/rules_dict.py:remove_rule_for_all_versions"]}
{"id": "C96", "title": "Command line values reach exactly their option", "statement": "The value a config option gets from the command line is made of exactly the values given with its option string: none if it is not given, the last one for options with one value, all of them in order for list and dict options; improper use ends the program with status 2. A full option string always means its own option, an unambiguous beginning the one it abbreviates. (Violated for descriptions with arguments containing slashes, which always end in KeyError, and for the argument config-dir, which --xylem-dir sets, too; proved for all other descriptions and for all options of xylem's own commands.)", "quantifier": "every config description, set of command options and sequence of options on the command line", "why_tests_cant": "all descriptions and command lines", "anchors": ["xylem/config_utils.py:ConfigItem.add_argument", "xylem/config_utils.py:ConfigDescription.add_arguments", "xylem/config_utils.py:config_from_args", "xylem/config_utils.py:add_global_config_arguments", "xylem/arguments.py:add_global_arguments", "xylem/commands/main.py:create_command_parser"]}
{"id": "C97", "title": "Options may be given before or after the command name", "statement": "xylem's config and global options mean the same before and after the name of the command, as both parsers accept them. (Violated with python 2.7.9 and later: there options given before the command are accepted and silently ignored; proved for the argparse before that.)", "quantifier": "every config description, command and distribution of options", "why_tests_cant": "all command lines", "anchors": ["xylem/commands/main.py:main", "xylem/commands/main.py:create_command_parser", "xylem/commands/main.py:create_subparsers"]}
{"id": "C98", "title": "--print-config prints the effective config", "statement": "With --print-config the effective config is printed once on stdout, the program ends with exit status 0, and the command is not run; if the config cannot be read, nothing is printed on stdout and the program ends with the exception. Without the flag the command runs with the effective config as global config. The printed config, used as the only config file, gives every option the same value again. (Last part violated with an os override: the printed file is rejected; proved without.)", "quantifier": "every environment, set of config files, command and command line", "why_tests_cant": "all configs and commands", "anchors": ["xylem/config_utils.py:handle_global_config_arguments_post", "xylem/config.py:handle_config_arguments", "xylem/config.py:process_config", "xylem/config_utils.py:load_config", "xylem/commands/main.py:main"]}
{"id": "C99", "title": "Global switches and messages", "statement": "Debug output is on iff -d or --debug is given or XYLEM_DEBUG is set, the debugger iff --pdb is given or XYLEM_PDB is set, verbose output iff -v or --verbose is given, and colours are off iff --no-color is given, whatever else is on the command line. Debug messages are printed iff debug output is on, verbose ones iff verbose output is on, others always; normal messages on stdout, others on stderr; without colours as the plain text. (Violated if main is called again in one process: -v and --no-color of the first call stay in force.)", "quantifier": "every command line, environment, message and history of calls", "why_tests_cant": "all command lines and histories", "anchors": ["xylem/arguments.py:handle_global_arguments", "xylem/log_utils.py:debug", "xylem/log_utils.py:info", "xylem/log_utils.py:info_v", "xylem/log_utils.py:warning", "xylem/log_utils.py:error", "xylem/log_utils.py:enable_debug", "xylem/log_utils.py:enable_verbose"]}
{"id": "C100", "title": "Paths in the configuration", "statement": "Whatever path is given for a directory or config file, with a tilde, relative, with dots or repeated slashes, the path used is absolute and has no empty, dot or dot-dot part and no tilde at its beginning; expanding it again changes nothing, so it means the same wherever it is used later; a path that is already of this kind is left alone; walking along the given path from the current directory (or the home directory for a tilde) leads to the place the used path names. All directories of an effective config are of this kind.", "quantifier": "every path, current directory and home directory", "why_tests_cant": "all strings", "anchors": ["xylem/config_utils.py:expand_input_path", "xylem/config.py:process_config", "xylem/config_utils.py:user_config_dir", "xylem/config.py:handle_config_arguments"]}
{"id": "C101", "title": "The flags of xylem install, from the command line to the machine", "statement": "Whatever config files, environment, other options and keys there are: with --dry-run after the name of the command no command is executed; plugins are asked to fix prerequisites iff --fix-prerequisites is given, and without it a dry run leaves the machine as it is; without --continue-on-error nothing is executed after a command that fails; with it every planned command is executed; --reinstall reinstalls; with --help, --version or --print-config, or when the command line or the configuration is refused, nothing is asked of any plugin and the machine is unchanged. (Violated for --reinstall, which never executes anything; with --continue-on-error proved for runs not ended by an exception.)", "quantifier": "every command line, configuration, set of plugins, rules and machine", "why_tests_cant": "all command lines and executions", "anchors": ["xylem/commands/main.py:main", "xylem/commands/install.py:main", "xylem/install.py:install", "xylem/arguments.py:handle_global_arguments"]}
{"id": "C102", "title": "Exit status 0 of xylem install means installed", "statement": "If xylem install, not simulated, ends with exit status 0, then every given key (with --all every key of the database) was resolved, and every resolution of every one of them is installed on the machine at the end. (Violated when an installed-check fails and --continue-on-error is not given, and when a plugin has no command for what it is to install: both end with status 0 and nothing installed. Proved for all other plugins, if installed things stay installed.)", "quantifier": "every command line, configuration, set of plugins, rules and machine", "why_tests_cant": "all executions", "anchors": ["xylem/commands/install.py:main", "xylem/install.py:install", "xylem/commands/main.py:main"]}
{"id": "C103", "title": "xylem update and the directories given", "statement": "The last --cache-dir or --sources-dir after the name of the command decides the directory, whatever config files say. xylem update --cache-dir D changes only files <sha1>.pickle directly in D/sources; xylem update --sources-dir S reads the source files of S only; with --dry-run it changes nothing. (Violated for --dry-run, which makes no difference at all.)", "quantifier": "every command line, configuration, file system and answers of servers", "why_tests_cant": "all executions", "anchors": ["xylem/commands/update.py:main", "xylem/update.py:update", "xylem/sources/impl.py:get_source_descriptions", "xylem/sources/database.py:RulesSource.save_to_cache", "xylem/config.py:process_config"]}
{"id": "C104", "title": "xylem --os decides the operating system", "statement": "With --os name:version after the name of the command (the last one, if there are several), installers are set up for exactly that os and that version, whatever the machine is and config files say, or the program ends with an error.", "quantifier": "every command line, configuration, set of os plugins and machine", "why_tests_cant": "all inputs", "anchors": ["xylem/installers/impl.py:InstallerContext.setup_os", "xylem/os_support/impl.py:OSSupport.override_os", "xylem/config.py:process_config", "xylem/commands/main.py:main"]}
{"id": "C105", "title": "xylem update, then another command", "statement": "After xylem update, any other command, started in the same environment with the same common options, works with the same sources; each has the data the update downloaded, or, if it could not be downloaded, what the cache had before; whatever was in the cache before the update, also after crashes.", "quantifier": "every command, command line, configuration, cache content and answers of servers", "why_tests_cant": "all histories of the cache", "anchors": ["xylem/commands/update.py:main", "xylem/update.py:update", "xylem/sources/database.py:RulesDatabase.update", "xylem/sources/database.py:RulesDatabase.load_from_cache", "xylem/commands/main.py:main"]}
{"id": "C106", "title": "Common options mean the same to all commands", "statement": "Two commands, started in the same environment with the same options before the name of the command and the same common options after it (written in full), whatever their own options, work with the same effective config and the same switches for debugging, verbosity and colours. (Violated for abbreviations: an option abbreviated unambiguously for one command can be a usage error for another.)", "quantifier": "every pair of commands, command line, environment and config files", "why_tests_cant": "all command lines", "anchors": ["xylem/commands/main.py:create_command_parser", "xylem/commands/main.py:main", "xylem/arguments.py:add_global_arguments", "xylem/config_utils.py:ConfigDescription.add_arguments"]}
{"id": "C107", "title": "xylem resolve shows what xylem install works on", "statement": "xylem resolve prints one line for each resolved key, with its installer and resolutions, and ends with status 0 iff no key failed. xylem install with the same keys and common options, if it plans to install anything, has asked the installers about exactly those resolutions, in the order shown; if a key cannot be resolved it does nothing at all, unless --continue-on-error is given.", "quantifier": "every command line, configuration, set of plugins, rules and machine", "why_tests_cant": "all executions of two programs", "anchors": ["xylem/commands/resolve.py:main", "xylem/commands/install.py:main", "xylem/resolve.py:resolve", "xylem/install.py:install"]}
{"id": "C108", "title": "Configs do not influence each other or the defaults", "statement": "get_default_config computes the default config and changes no object; whatever a program does with the configs it gets (default, loaded, made from dicts or merged): assigning to an option sets that option of that config only, and later default and loaded configs are the same as ever. (Violated for changes inside values: the default list of an option is one object shared by all configs; appending to it in one default config changes all default and loaded configs made later.)", "quantifier": "every description, memory with sharing, and sequence of operations of a program", "why_tests_cant": "all histories and all ways objects can be shared", "anchors": ["xylem/config_utils.py:config_from_defaults", "xylem/config.py:get_default_config", "xylem/config_utils.py:load_config", "xylem/config_utils.py:merge_configs", "xylem/config.py:ensure_config"]}
{"id": "C109", "title": "Merging configs leaves them alone", "statement": "merge_configs on configs in memory, shared parts or not, computes the config that merging the options one by one gives; none of the configs given nor anything in them is changed; the result and its groups are new dicts (its values may be those of the given configs).", "quantifier": "every description, memory with sharing, and complete configs", "why_tests_cant": "all ways objects can be shared", "anchors": ["xylem/config_utils.py:merge_configs", "xylem/config_utils.py:copy_conifg_dict", "xylem/config_utils.py:MergingDict"]}
{"id": "C110", "title": "Making a config from a dict or from files leaves everything else alone", "statement": "ensure_config on a dict of the user and load_config compute the config that belongs to it, respectively to the command line, files and defaults; no object that existed before is changed, also not by a call that fails, in particular not the dict of the user; the result and its groups are new dicts. ensure_config returns the global config for None and a config itself.", "quantifier": "every description, memory with sharing, dict, command line and set of files", "why_tests_cant": "all inputs and all ways objects can be shared", "anchors": ["xylem/config.py:ensure_config", "xylem/config_utils.py:config_from_parsed_yaml", "xylem/config_utils.py:load_config", "xylem/config_utils.py:config_from_args", "xylem/config_utils.py:config_from_file"]}
{"id": "C111", "title": "copy_to_dict makes an independent copy", "statement": "copy_to_dict on a (nested) config, shared parts or not, returns an equal dict; no object is changed, the copy consists of new objects only, and whatever happens to the original afterwards the copy stays the same.", "quantifier": "every memory with sharing and nested config", "why_tests_cant": "all ways objects can be shared", "anchors": ["xylem/config_utils.py:copy_to_dict"]}
{"id": "C112", "title": "Context managers put back what they change", "statement": "After a block guarded by change_directory or temporary_directory the process is in the directory it came from, after redirected_stdio the output streams are the ones from before, and a temporary directory is gone with all its contents, however the block ends; the outcome of the block is the outcome of the statement, and what a block prints under redirected_stdio is captured in order. (Violated: change_directory() with its default argument never works, one object used for two nested statements loses the way back, a vanished directory is passed over silently, and a failing removal of the temporary directory leaves the process inside it and hides how the block ended.)", "quantifier": "every process state, file system and block (any code, ending with a value or an exception)", "why_tests_cant": "the block is arbitrary code", "anchors": ["xylem/util.py:change_directory", "xylem/util.py:redirected_stdio", "xylem/util.py:temporary_directory"]}
{"id": "C113", "title": "Text and bytes convert faithfully", "statement": "to_str(to_bytes(t)) is t for every text; to_bytes(to_str(b)) is b exactly for valid UTF-8; decoding never raises, keeps the valid beginning and marks damage with U+FFFD; what the log functions print decodes to exactly the message. Every object can be converted without an exception and different lists of texts look different. (Violated for objects whose methods raise, and for lists with commas in items.)", "quantifier": "every text, byte string, object and treatment of undecodable bytes", "why_tests_cant": "all byte strings", "anchors": ["xylem/text_utils.py:to_str", "xylem/text_utils.py:to_bytes", "xylem/text_utils.py:type_name", "xylem/log_utils.py:info"]}
{"id": "C114", "title": "Exceptions can always be shown, with their message", "statement": "to_str and exc_to_str of an exception or chain of exceptions give a text that contains the message. (Violated on python 2: a message with characters that are not ASCII is never shown as such, and bytes that are not ASCII, as in errors of the YAML parser about a line with such characters, make the conversion itself raise UnicodeDecodeError; exact condition proved.)", "quantifier": "every exception name and message, chains of any length", "why_tests_cant": "all messages", "anchors": ["xylem/text_utils.py:to_str", "xylem/exception.py:exc_to_str"]}
{"id": "C115", "title": "Reporting a failing source does not disturb the others", "statement": "The messages about sources that cannot be loaded or saved have no influence on an update or on loading from the cache, and a source list file that is not YAML is reported and skipped. (Violated on python 2: if the error text has bytes that are not ASCII, forming the message raises, and later sources are neither loaded nor saved although raise_on_error is off.)", "quantifier": "every list of sources, pattern of failures and error text", "why_tests_cant": "failure patterns times error texts", "anchors": ["xylem/sources/database.py:RulesDatabase.update", "xylem/sources/database.py:RulesDatabase.load_from_cache", "xylem/sources/impl.py:parse_source_descriptions"]}
{"id": "C116", "title": "Everything resolve shows is installed after a successful install", "statement": "xylem resolve and xylem install with the same keys, common options and --all or not: if install (no dry run) exits with status 0, then resolve exits with status 0 and prints a line for every key, and every resolution on these lines is installed on the machine. Presupposes honest installer plugins whose installed-checks work (or --continue-on-error).", "quantifier": "every command line, config, rules, plugins and state of the machine", "why_tests_cant": "two whole programs in any environment", "anchors": ["xylem/commands/install.py:main", "xylem/commands/resolve.py:main", "xylem/install.py:install", "xylem/resolve.py:resolve"]}
{"id": "C117", "title": "lookup shows the rules resolve chooses from", "statement": "xylem lookup prints one block for each key given, in order, headed by the key and the os, whose YAML text says exactly the rules of the database for that key on this os. With the same common options, each result xylem resolve shows comes from a rule lookup shows for that key and the chosen installer, and resolve says that there is no rule only if lookup shows none. After xylem update these are the rules downloaded.", "quantifier": "every command line, config, valid rules sources and plugins", "why_tests_cant": "whole programs in any environment", "anchors": ["xylem/commands/lookup.py:main", "xylem/lookup.py:lookup", "xylem/commands/resolve.py:main", "xylem/commands/update.py:main"]}
{"id": "C118", "title": "A dry run shows what the installation will do", "statement": "install with simulate (xylem install --dry-run) executes nothing and shows exactly the commands the installers planned, in order, each as it would be typed, under a heading for each group. If the installers' commands do not depend on the state of the machine (true for all shipped installers), an installation started in the same state executes nothing but commands shown, in the same order, up to the point where it stops, and exactly those if it reports no installation errors or was told to continue. A rule with a null among its packages ends both with a TypeError: the dry run before anything is executed, the installation only after having executed the commands before it.", "quantifier": "every machine, installer context, database, options, keys and outcome of the commands", "why_tests_cant": "two runs in every environment and with every pattern of failing commands", "anchors": ["xylem/install.py:install_resolutions", "xylem/install.py:install", "xylem/commands/install.py:main"]}
{"id": "C119", "title": "What update prints", "statement": "xylem update names the file of a source list before the first of its sources and every source (spec and arguments) before it is downloaded, file by file; after that it either saves the source or prints exactly one message on stderr with the id of the source and the reason. So, unless it was interrupted, it prints no message about a source if and only if every source was downloaded and saved. The messages influence neither what is written nor how the command ends.", "quantifier": "every list of sources, source lists on disk, pattern of failures and exit", "why_tests_cant": "every pattern of failing downloads and writes", "anchors": ["xylem/sources/database.py:RulesDatabase.update", "xylem/update.py:update", "xylem/commands/update.py:main"]}
{"id": "C120", "title": "What opening the database prints", "statement": "Opening the database of sources, which every command does, prints nothing on stdout unless verbose (then one line that says where sources are read from), one message on stderr for each source list that is not YAML, and a warning on stderr that default sources are used exactly if the sources dir does not exist and not both directories are the default ones. sources_dir and cache_dir of the config decide the directories, None and the empty text stand for the defaults. Verbosity and colours do not influence which sources are opened.", "quantifier": "every config, directory, set of source lists and plugins", "why_tests_cant": "every combination of directories and files", "anchors": ["xylem/sources/database.py:RulesDatabase.init_from_sources", "xylem/sources/impl.py:SourcesContext.setup_paths", "xylem/sources/impl.py:SourcesContext.is_default_dirs", "xylem/sources/impl.py:parse_source_descriptions"]}
{"id": "C121", "title": "Installing again does nothing", "statement": "If every key resolves and every resolution is installed already, according to the installer that serves it, an installation without --reinstall plans, executes, shows and verifies nothing: it only asks the installers for their general prerequisites and for what is not installed, and ends without errors unless a plugin raises on being asked. So after an installation (not a dry run) that ended without errors, the same installation again does nothing; and a second run of `xylem install` with the same keys and config after one with exit status 0 prints nothing and ends with exit status 0.", "quantifier": "every set of keys, database, installer, state of the machine, options of both runs", "why_tests_cant": "the state left by the first run for every history of commands", "anchors": ["xylem/install.py:install", "xylem/commands/install.py:main", "xylem/installers/plugins/pip.py:PipInstaller.filter_uninstalled", "xylem/installers/plugins/fake.py:FakeInstaller.filter_uninstalled"]}
{"id": "C122", "title": "Results are not mixed with messages", "statement": "Unless it is verbose, a command (resolve, install, lookup, update) prints on stdout exactly what it prints as results: everything said while plugins are loaded, the os is detected, installers are set up, the database is opened and keys are resolved goes to stderr. Saying things never changes how a command ends or the settings it runs with.", "quantifier": "every configuration, set of plugins, database and command line", "why_tests_cant": "all messages of all layers together, for every combination of plugins and configuration", "anchors": ["xylem/log_utils.py:info_v", "xylem/log_utils.py:warning", "xylem/log_utils.py:error", "xylem/plugin_utils.py:load_plugins", "xylem/commands/resolve.py:main", "xylem/commands/install.py:main", "xylem/commands/lookup.py:main", "xylem/commands/update.py:main"]}
{"id": "C123", "title": "Verbose output leaves stdout alone", "statement": "Being verbose adds lines on stderr only, so that results on stdout can be processed also if -v is given. (Does not hold: where the sources are read from is printed on stdout; lookup repeats that line for every key, because it opens the database for every key. It is the only line added.)", "quantifier": "every configuration, set of plugins, database and command line", "why_tests_cant": "the output of whole runs for every configuration", "anchors": ["xylem/sources/impl.py:SourcesContext", "xylem/sources/database.py:RulesDatabase", "xylem/lookup.py:lookup", "xylem/commands/lookup.py:main", "xylem/log_utils.py:info"]}
{"id": "C124", "title": "Setting up reports every problem", "statement": "While setting up, there is exactly one message per entry point of plugins, in order: broken definitions, invalid and duplicate plugins are always reported, loaded and disabled ones if verbose. The os used and whether it was detected or overridden is said if verbose. Unknown options of an os or installer plugin and unknown keys of a rule are reported with their names, and nothing is said if all are known. Every core installer without plugin is reported, so on OS X with default configuration every command complains about gem. Opening the database reports a missing sources directory and every source file that is not YAML.", "quantifier": "every set of plugins, configuration and source files", "why_tests_cant": "all combinations of broken plugins, options and files", "anchors": ["xylem/plugin_utils.py:load_plugins", "xylem/installers/impl.py:InstallerContext.setup_os", "xylem/installers/impl.py:InstallerContext.setup_installers", "xylem/installers/installer_base.py:InstallerBase.options", "xylem/os_support/os_base.py:OSBase.options"]}
{"id": "C125", "title": "Resolving says what it chose and what it ignored", "statement": "Resolving reports every entry of install_from that is ignored because an earlier one lists its key, naming the installer used instead. If verbose, it says for every key with a usable rule which installer was found, key by key in order; the last such message names the installer that is used, and for several additional installers with rules there are several messages, of which only the last is true. The complete output of resolve, both streams in order, is: the messages of setting up, of opening the database, of resolving, and then the results; likewise for install, followed by what installing prints.", "quantifier": "every install_from setting, set of installers, database and list of keys", "why_tests_cant": "the order of messages for every database and setting", "anchors": ["xylem/resolve.py:resolve", "xylem/commands/resolve.py:main", "xylem/commands/install.py:main"]}
{"id": "C126", "title": "Layout of help texts", "statement": "A help text is shown paragraph by paragraph (three or more line breaks in a row separate paragraphs) with exactly one empty line between two paragraphs and none at the ends; within a paragraph two line breaks are a hard line break and each block is wrapped to the width. A paragraph that starts with R| is only re-indented: its lines keep their indentation relative to each other. No visible character is lost, added or moved, apart from the R| marks. (Relative indentation does not hold for a text that starts with a line break before R|, as texts in triple quotes do: its first line is shifted to the right by the line break.)", "quantifier": "every text, width and indentation", "why_tests_cant": "every text with any pattern of line breaks and blanks", "anchors": ["xylem/config_utils.py:ConfigHelpFormatter"]}
{"id": "C127", "title": "Help entries name the config entry", "statement": "The help entry of a config option on the command line shows its description, its type and, exactly if there is one, its default; and it lets the reader find the entry in the config file: either its full name is shown, or it is the option name with underscores for dashes.", "quantifier": "every config item, option name, description, type and default", "why_tests_cant": "every name, with and without group", "anchors": ["xylem/config_utils.py:ConfigItem.help_string", "xylem/config_utils.py:ConfigItem.is_group", "xylem/config.py:build_config_description"]}
{"id": "C128", "title": "Contexts passed to the API", "statement": "resolve, install, lookup and update use the contexts and the database passed to them; passing exactly what they would have made from the config changes nothing, whichever subset is passed, and the command line programs do what the API does with the effective config alone. With a database the sources context is not looked at; with a database and an installer context nothing of the config counts but install_from. resolve and install refuse an object of another class with a ValueError before anything is done, and the message names its class. (The last does not hold: the message names the class of the config.)", "quantifier": "every config, context, database, subset of arguments, options and keys", "why_tests_cant": "every combination of arguments and machine state", "anchors": ["xylem/installers/impl.py:ensure_installer_context", "xylem/sources/impl.py:ensure_sources_context", "xylem/resolve.py:resolve", "xylem/install.py:install", "xylem/lookup.py:lookup", "xylem/update.py:update"]}
{"id": "C129", "title": "A plain dict as config", "statement": "Every API function accepts a plain dict as config and does what it does with the config made from it, all other options having their defaults. (Holds for resolve and install; refuted for update, whose documentation asks for a dict, and for lookup: they end with AttributeError for every plain dict unless all contexts are passed.)", "quantifier": "every dict, set of arguments and machine state", "why_tests_cant": "every dict", "anchors": ["xylem/config.py:ensure_config", "xylem/update.py:update", "xylem/lookup.py:lookup", "xylem/resolve.py:resolve", "xylem/install.py:install"]}
{"id": "C130", "title": "Command line values of options mean what their help says", "statement": "A list option given on the command line is, for every occurrence, either a YAML list or text that is split at commas; the occurrences are joined in order. A dict option given on the command line is, for every occurrence, either a YAML dict or comma separated 'key: value' pairs; a key given twice, in one occurrence or in several, is refused, and everything else is refused with an error, too. Text options take the text as it is, path options the expanded path.", "quantifier": "every list of occurrences and every text", "why_tests_cant": "every text on the command line", "anchors": ["xylem/config_utils.py:List", "xylem/config_utils.py:Dict", "xylem/config_utils.py:String", "xylem/config_utils.py:Path"]}
{"id": "C131", "title": "Being verbose does not change an installation", "statement": "Whatever it says, an installation does the same things in the same order, returns the same report and leaves the machine in the same state; what it says goes to stderr. The whole output of xylem install, on both streams and in order, is determined: setting up, resolving, what is done and said while installing, the errors.", "quantifier": "every machine, set of installers, database, options, keys and verbosity", "why_tests_cant": "the interleaving of everything done and said, for every machine", "anchors": ["xylem/install.py:install", "xylem/install.py:install_resolved", "xylem/install.py:install_resolutions", "xylem/commands/install.py:main", "xylem/log_utils.py:info_v"]}
{"id": "C132", "title": "What is said about an installation is true", "statement": "'successfully installed' is said about an installer only if every command it planned was run and returned 0, and every package was found installed afterwards. The return code said after a command is the one the command returned, and it is said for every command that ran, before anything else is done. If verbose, the installation with an installer that returns ends with exactly one summary (nothing to do, success, or errors), except in simulations and if it stopped at a failing command.", "quantifier": "every machine, set of installers, list of resolutions and options", "why_tests_cant": "every sequence of exit codes and detection results", "anchors": ["xylem/install.py:install_resolved", "xylem/install.py:install_resolutions", "xylem/log_utils.py:info_v"]}
{"id": "C133", "title": "Messages of the checks of package managers", "statement": "Saying things does not change the outcome of the check of a package manager. The messages tell what was found and tried: whether it is there, was installed, cannot be installed, or is still missing; whether it is up to date, was updated, cannot be updated, or is still out of date. They go to stderr; unless verbose nothing is said about a package manager that is there and not known to be out of date, and a failed attempt to install it is always reported with the name of the installer. (Does not hold in one respect: the advice to update does not name the package manager, it shows '{}' instead.)", "quantifier": "every package manager, state of the machine, and combination of fixing, interactive and verbose", "why_tests_cant": "every behaviour of the methods of a package manager", "anchors": ["xylem/installers/package_manager_installer.py:PackageManagerInstaller.check_general_prerequisites", "xylem/installers/package_manager_installer.py:PackageManagerInstaller.check_package_manager_installed", "xylem/installers/package_manager_installer.py:PackageManagerInstaller.check_package_manager_updated"]}
{"id": "C134", "title": "Errors that end the program are shown with their causes", "statement": "Whatever error ends xylem (not a request to exit, nor an interrupt by the user while the command runs), the status is 1 and the last thing shown, on stderr, is the error with all its causes, root cause first. Tracebacks are left out exactly for known errors of the command outside debug mode. If there is no error, nothing more is shown. The debugger is started only after an error nobody handled, if asked for and there is a terminal. (Does not hold for scripts of other names, such as xylem-update: causes of errors nobody handled are not shown.)", "quantifier": "every command, command line, environment, error and chain of causes", "why_tests_cant": "every error and chain of causes at every point of the program", "anchors": ["xylem/util.py:custom_exception_handler", "xylem/util.py:set_excepthook", "xylem/util.py:print_exc", "xylem/util.py:enable_pdb", "xylem/exception.py:exc_to_str", "xylem/commands/main.py:main"]}
{"id": "C135", "title": "Updates running at the same time", "statement": "Any number of xylem update processes may run at the same time with one cache directory: when all have finished, the cached data of every source is complete and is what one of them has downloaded (or the old data, if none could download and write it), and none fails because of the others. (Holds for the files if every file is written in one piece and no write fails half-way; then also whatever was in the files before. Refuted otherwise: if files are written in several pieces, two updates without errors can leave a file with the data of one and the time of the other; and of two processes that find no cache directory one may fail with OSError.)", "quantifier": "every number of processes, every order of their steps, every pickler, outcome of the downloads and earlier content", "why_tests_cant": "all interleavings of any number of processes", "anchors": ["xylem/sources/database.py:_write_cache", "xylem/sources/database.py:RulesSource.save_to_cache", "xylem/sources/impl.py:SourcesContext.ensure_cache_dir"]}
{"id": "C136", "title": "Using the cache while it is updated", "statement": "A command that reads the cache while updates run gets for every source the old data or complete data one of the updates has downloaded, never a mixture or part of it, and does not fail because of the update. (The first part holds for a file read at one moment, for one update however it writes the files, and for any number of updates if every file is written in one piece; for a file read in several pieces if the update does not empty it in between. Refuted otherwise: a command that reads a file in two pieces while it is rewritten can get the old data with the new time. The second part is refuted: every update that writes a source has a moment at which its file is unreadable and loading it raises.)", "quantifier": "every moment of every interleaving of any number of updates, every pickler, processes may be killed at any time", "why_tests_cant": "all interleavings and all moments", "anchors": ["xylem/sources/database.py:_read_cache", "xylem/sources/database.py:_write_cache", "xylem/sources/database.py:RulesSource.load_from_cache"]}
{"id": "C137", "title": "The options of xylem are as documented", "statement": "xylem has exactly the documented options. Whatever the command line and the config files are, if the config can be loaded every option has the value given on the command line under its documented name, else that of the first config directory (in the documented order) whose file sets it, else its documented default; values are read as the documented type, and install_from and installer_options are put together key by key from all places. Without options and config files all options have their documented defaults.", "quantifier": "every command line, every content of the config files, every YAML library and path expansion", "why_tests_cant": "all combinations of command line and config files", "anchors": ["xylem/config.py:build_config_description", "xylem/config_utils.py:load_config", "xylem/config_utils.py:merge_configs"]}
{"id": "C138", "title": "Converting a plain dict to a config dict", "statement": "ceorce_config_dict returns for a plain dict a config dict with the same (recursively converted) entries, returns a config dict itself unless a copy is asked for, and everything else unchanged. (Holds for the last two; refuted for every plain dict and every copy: None is returned.)", "quantifier": "every value and both settings of copy", "why_tests_cant": "all values", "anchors": ["xylem/config_utils.py:ceorce_config_dict"]}
{"id": "C139", "title": "The words of the command line are read as written", "statement": "Every command line of options for xylem, the name of a command, options for it and its keys is read as just that, whatever way the options are written (--flag value, --flag=value, abbreviated, short options combined; keys behind -- may look like options), and xylem then does and prints what the command does with these options and keys. Conversely, every accepted line has this form; a wrong number of keys ends the program before anything is done. In particular, with the word --dry-run on the command line no command is executed, and without a word that begins with --f no plugin is asked to fix anything, and a rules file is written only if it and _compact_rules_file are words and another word begins with a dash and has a w in it, whatever the other words are.", "quantifier": "every list of words, every environment, config, state of the machine", "why_tests_cant": "all command lines", "anchors": ["xylem/commands/main.py:main", "xylem/commands/main.py:create_command_parser", "xylem/commands/main.py:create_subparsers", "xylem/arguments.py:add_global_arguments", "xylem/commands/install.py:prepare_arguments"]}
{"id": "C140", "title": "Options may stand anywhere, and bad command lines are usage errors", "statement": "Options of a command may stand before, between and behind its keys, and a command line that is not accepted ends with a usage error (exit status 2, or 0 for help and version) before anything is done. (Options before and behind the keys are fine, C139; refuted for options between keys, which are refused, and for words like -v=, which end the program with an exception.)", "quantifier": "every list of words", "why_tests_cant": "all command lines", "anchors": ["xylem/commands/main.py:main", "xylem/commands/main.py:create_command_parser"]}
{"id": "C141", "title": "Loading and saving the database separately", "statement": "RulesDatabase.load_from_source changes no file; RulesDatabase.save_to_cache changes no source in memory. With raise_on_error each raises iff some source fails, and save_to_cache has then saved exactly the sources before the first one that fails; without, failing sources are skipped. If every download works, load_from_source followed by save_to_cache is update. Saving never makes a cache file useless that could be loaded before. (The last part is violated: a source that is not loaded, for example because its download failed, is saved without data over its good cache file; update does not do this.)", "quantifier": "every database, every outcome of downloads and writes, every content of the cache directory", "why_tests_cant": "all failure patterns", "anchors": ["xylem/sources/database.py:RulesDatabase.load_from_source", "xylem/sources/database.py:RulesDatabase.save_to_cache", "xylem/sources/database.py:RulesSource.save_to_cache", "xylem/sources/database.py:RulesDatabase.update"]}
{"id": "C142", "title": "A disabled plugin might as well not be installed", "statement": "If the config lists a plugin name among the disabled os, installer or spec plugins, a run of xylem with any words does the same to the machine, the cached files and rules files, ends the same way, and prints the same on stdout, as if plugins of that kind and name were not installed, even if instantiating them would raise; only stderr may differ. The contexts and sources made through the API are the same too. This needs the module of the plugin to be importable and its definition to be complete: a module that raises when imported ends everything, disabled or not.", "quantifier": "all words on the command line, configs, sets of installed plugins, machines", "why_tests_cant": "all combinations of plugins, configs and commands", "anchors": ["xylem/plugin_utils.py:load_plugins", "xylem/installers/impl.py:InstallerContext", "xylem/specs/impl.py:load_spec_plugins", "xylem/os_support/impl.py:load_os_plugins", "xylem/commands/main.py:main"]}
{"id": "C143", "title": "The commands obey the options of the config", "statement": "With the effective config of a run: a key that install_from assigns to an installer (first entry that lists it) is resolved with that installer or not at all, other keys as if install_from were empty; if the os is overridden by name (and version), installers are set up and rules are looked up for that os (and version); rules are always looked up for the same os the installers are set up for, with the default installer of its plugin; the os plugin gets the configured features; each enabled installer plugin gets the options listed under its name; the core installers are the configured ones, in order; additional installers can be switched off.", "quantifier": "all configs, plugins, databases, keys", "why_tests_cant": "all combinations of options and plugins", "anchors": ["xylem/resolve.py:resolve", "xylem/installers/impl.py:InstallerContext.setup_os", "xylem/installers/impl.py:InstallerContext.setup_installers", "xylem/lookup.py:lookup"]}
{"id": "C144", "title": "Asking for help or for the version", "statement": "xylem asked for help or for its version (-h, --help, --version, an abbreviation of these, or -h among other short options in one word), be it before or behind the name of a command, with or without other options and keys, does nothing else: no config is loaded, nothing is installed, updated or written, and the exit status is 0; what the command would need, such as keys, may be missing. Only words behind it that the parser does not know can turn the exit status into 2. Conversely, if xylem ends with status 0 without calling a command, then some word asked for help or for the version.", "quantifier": "all options and keys around the request, in any of the ways to write them, all words behind it, all commands, all states of process and machine; for the converse all word lists", "why_tests_cant": "the claim is about every command line that contains such a request and about every command line that does not", "anchors": ["xylem/arguments.py:PagerHelpAction", "xylem/arguments.py:add_global_arguments", "xylem/commands/main.py:main"]}
{"id": "C145", "title": "The order in which plugins are found does not matter", "statement": "pkg_resources promises no order of the entry points. If no two plugins of a kind have the same name, one os is more specific than all others that detect themselves (or the os is given by the user), no two additional installers have a rule for the same key, and nothing raises, then finding the plugins in another order changes nothing: the os, the core installers, the results of resolve and install, what whole runs do to machine and files, their exit status and what they print on stdout are the same. For the plugins that come with xylem this is so, on all machines that have not both LSB information and sw_vers, unless options are given for the fake installer.", "quantifier": "all pairs of worlds whose lists of entry points (os, installer, spec) are permutations of each other, all configs, words, keys, databases and machine states", "why_tests_cant": "there are factorially many orders, and the order a test sees is that of the machine it runs on", "anchors": ["xylem/plugin_utils.py:load_plugins", "xylem/installers/impl.py:InstallerContext", "xylem/os_support/impl.py:OSSupport", "xylem/resolve.py:resolve"]}
{"id": "C146", "title": "A refused configuration value is named", "statement": "A value of a config file that does not have the type of its option is refused with a ConfigValueError whose message names the first thing inside it that does not fit, its type and the type it should have; values that fit are accepted whatever they look like; verify says in addition that the thing is inside a list or dict, once for each. (Violated on python 2: if the value is a byte string - !!binary - that is not ASCII, the message cannot be formed and a UnicodeDecodeError ends the program instead.)", "quantifier": "every type of options (nested to any depth), every YAML value, every way values are shown as text", "why_tests_cant": "values nest without bound; tests use values that can be shown", "anchors": ["xylem/config_utils.py:List", "xylem/config_utils.py:Dict", "xylem/config_utils.py:MergingDict", "xylem/config_utils.py:String", "xylem/config_utils.py:Boolean", "xylem/config_utils.py:Path", "xylem/exception.py:type_error_msg", "xylem/exception.py:raise_from"]}
{"id": "C147", "title": "Words of the command line that are not ASCII", "statement": "An option of the configuration that is given on the command line has the value that its words, as UTF-8 text, mean. (Violated on python 2: the words are byte strings; a list or dict that is written without its outer brackets and has a character that is not ASCII ends the program with a UnicodeDecodeError. Exactly then: with brackets, and for all other types, all characters are fine.)", "quantifier": "every type of options, every list of words, every YAML reader that reads bytes as the text they encode", "why_tests_cant": "all texts; test environments have ASCII arguments", "anchors": ["xylem/config_utils.py:List", "xylem/config_utils.py:Dict", "xylem/config_utils.py:String", "xylem/text_utils.py:to_str"]}
{"id": "C148", "title": "Keys that are not ASCII", "statement": "A key given on the command line is looked up, resolved and reported as the text its bytes encode, whatever characters it has. (Violated on python 2: keys are byte strings. With a key that is not ASCII, resolving - hence xylem install and xylem resolve - always raises, for all keys, also if there is a rule for its text; the exception is a UnicodeDecodeError unless something else goes wrong before. xylem lookup prints the rules of the keys before it and then crashes. ASCII keys are treated exactly as their texts, also with --all.)", "quantifier": "all lists of words, all databases, plugins and configs", "why_tests_cant": "all texts and all combinations of keys; test environments have ASCII keys", "anchors": ["xylem/resolve.py:resolve", "xylem/commands/lookup.py:main", "xylem/commands/resolve.py:main", "xylem/commands/install.py:main"]}
{"id": "C149", "title": "Packages may have any name", "statement": "The commands an installer plugin wants for the resolutions are run (or, when simulating, shown), whatever characters the names of packages contain. (Violated: the command line is printed with markup before it is run. An @ in it that is no mark, as in brew install openssl@1.1, ends the whole installation with a ValueError, an @ before a name that is no colour, as in git@github.com, with a KeyError - after the commands before it were run, whatever the plugin and the options are. A simulation shows these commands without complaint. Commands without @ are run.)", "quantifier": "every plugin, machine, resolution and list of commands", "why_tests_cant": "all names; tests use names without markup", "anchors": ["xylem/install.py:install_resolutions", "xylem/install.py:install_resolved", "xylem/terminal_color.py:fmt", "xylem/terminal_color.py:ColorTemplate", "xylem/installers/plugins/homebrew.py:HomebrewInstaller"]}
{"id": "C150", "title": "Keys that a rule depends on", "statement": "What a rule depends on is resolved and installed together with the key. (Violated: a rule lists other xylem keys under depends, and a plugin reports them with get_depends, but nothing asks for them. Any two databases that differ only in the depends of rules give the same results and errors, and the same installation, for every list of keys and all options: no dependency is installed, and one that does not exist is not noticed.)", "quantifier": "every two databases that differ only in depends, every context whose plugins resolve rules as InstallerBase does, all keys, options and machines", "why_tests_cant": "all pairs of databases; tests check get_depends of one rule", "anchors": ["xylem/installers/impl.py:Installer", "xylem/installers/installer_base.py:InstallerBase", "xylem/resolve.py:resolve", "xylem/install.py:install"]}
