{
 "claims": [
  {
   "property": "C01",
   "status": "partial",
   "theorems": [
    "Verif.Target.C01_no_stale_object_partial",
    "Verif.Target.C01_C02_C03_general_partial",
    "Verif.Target.C01_pch_dropped_false",
    "Verif.Target.C01_unstored_and_revert_false",
    "Verif.Target.C01_object_collision_false",
    "Verif.Target.C01_repeated_source_false",
    "Verif.Target.C01_custom_template_false"
   ],
   "note": "Every history, schedule and crash point. Missing: histories outside Family and Disciplined, for which the full statement is false: see the theorems ending in _false."
  },
  {
   "property": "C02",
   "status": "partial",
   "theorems": [
    "Verif.Target.C02_no_stale_binary_partial",
    "Verif.Target.C01_C02_C03_general_partial"
   ],
   "note": "As C01."
  },
  {
   "property": "C03",
   "status": "partial",
   "theorems": [
    "Verif.Target.C03_no_stale_pch_partial",
    "Verif.Target.C01_C02_C03_general_partial",
    "Verif.Target.C03_pch_language_false",
    "Verif.Target.C03_header_edit_during_build_false"
   ],
   "note": "As C01."
  },
  {
   "property": "C04",
   "status": "proved",
   "theorems": [
    "Verif.Target.C04_null_rebuild",
    "Verif.Target.C04_C05_only_needed",
    "Verif.Target.C04_C05_exactly_needed"
   ],
   "note": ""
  },
  {
   "property": "C05",
   "status": "proved",
   "theorems": [
    "Verif.Target.C05_one_source",
    "Verif.Target.C04_C05_only_needed",
    "Verif.Target.C04_C05_exactly_needed"
   ],
   "note": ""
  },
  {
   "property": "C06",
   "status": "proved",
   "theorems": [
    "Verif.Target.C06_shared_change"
   ],
   "note": ""
  },
  {
   "property": "C07",
   "status": "proved",
   "theorems": [
    "Verif.Target.C07_schedule_independent"
   ],
   "note": "For runs of one target without outside changes in which the same commands succeed and fail; \"the same state\" is: every later run takes the same decisions."
  },
  {
   "property": "C08",
   "status": "proved",
   "theorems": [
    "Verif.Target.C08_failed_retried"
   ],
   "note": ""
  },
  {
   "property": "C09",
   "status": "proved",
   "theorems": [
    "Verif.Target.C09_no_later_command",
    "Verif.Target.C09_fail_stop"
   ],
   "note": ""
  },
  {
   "property": "C10",
   "status": "proved",
   "theorems": [
    "Verif.Target.C10_failure_reported",
    "Verif.Target.C10_success_iff"
   ],
   "note": ""
  },
  {
   "property": "C100",
   "status": "partial",
   "theorems": [
    "Verif.Reg.C100_versions_partial",
    "Verif.Reg.C100_project_partial",
    "Verif.Reg.C100_commands_partial",
    "Verif.Reg.C100_killed_false"
   ],
   "note": "For versions that keep to the stated rules. False when a builder is configured otherwise right after a run of it was killed."
  },
  {
   "property": "C101",
   "status": "partial",
   "theorems": [
    "Verif.Reg.C101_contents_partial",
    "Verif.Reg.C101_project_partial",
    "Verif.Reg.C101_reproducible_partial",
    "Verif.Reg.C101_two_makers_false"
   ],
   "note": "Under the conditions of C100. False for a file that has another maker in another version."
  },
  {
   "property": "C102",
   "status": "partial",
   "theorems": [
    "Verif.Target.C102_concurrent_partial",
    "Verif.Target.C102_independent",
    "Verif.Target.C102_edit_false",
    "Verif.Target.C102_flags_false",
    "Verif.Target.C102_failure_false"
   ],
   "note": "One configuration, edits between builds only, failed commands leave their outputs. False when any of these is dropped."
  },
  {
   "property": "C103",
   "status": "partial",
   "theorems": [
    "Verif.Generator.C103_concurrent_partial",
    "Verif.Generator.C103_independent",
    "Verif.Generator.C103_edit_false",
    "Verif.Generator.C103_configurations_false",
    "Verif.Generator.C103_failure_false",
    "Verif.Generator.C103_killed_false"
   ],
   "note": "One configuration, edits between runs only, no callback fails or is killed. False when any of these is dropped."
  },
  {
   "property": "C104",
   "status": "partial",
   "theorems": [
    "Verif.Target.C104_compile_exact",
    "Verif.Target.C104_compile_partial",
    "Verif.Target.C104_pch_partial",
    "Verif.Target.C104_link_exact",
    "Verif.Target.C104_link_partial",
    "Verif.Target.C104_header",
    "Verif.Target.C104_source_false",
    "Verif.Target.C104_include_false",
    "Verif.Target.C104_library_false"
   ],
   "note": "Sources, include directories, libraries and library directories without spaces. False with spaces: these paths are not quoted."
  },
  {
   "property": "C105",
   "status": "partial",
   "theorems": [
    "Verif.Argv.C105_test",
    "Verif.Argv.C105_test_plain",
    "Verif.Argv.C105_generator",
    "Verif.Argv.C105_generator_quoted",
    "Verif.Argv.C105_generator_false",
    "Verif.Argv.C105_script_exact",
    "Verif.Argv.C105_script_partial",
    "Verif.Argv.C105_script_false"
   ],
   "note": "Tests and generators with quotes in their patterns: proved. False for the directories of a generator without quotes and for configuration files of buildexe with a space in the name."
  },
  {
   "property": "C106",
   "status": "proved",
   "theorems": [
    "Verif.Sample.C106_accepted",
    "Verif.Sample.C106_plain",
    "Verif.Sample.C106_built",
    "Verif.Sample.C106_samples"
   ],
   "note": "A script has one toolchain; C109 has several.  As in C84, files are not edited at the moments named in Delicate."
  },
  {
   "property": "C107",
   "status": "partial",
   "theorems": [
    "Verif.Sample.C107_covered",
    "Verif.Sample.C107_samples",
    "Verif.Sample.C107_pch",
    "Verif.Sample.C107_generic_false",
    "Verif.Sample.C107_library_false",
    "Verif.Sample.C107_generated_false",
    "Verif.Sample.C107_below",
    "Verif.Sample.C107_below_false"
   ],
   "note": "Proved for scripts that glob their include directories, and false of three examples.  C107_below says exactly what a call tracks: entries of the directory itself, so a header in a directory below it is not tracked (C107_below_false)."
  },
  {
   "property": "C108",
   "status": "proved",
   "theorems": [
    "Verif.Sample.C108_accepted",
    "Verif.Sample.C108_plain",
    "Verif.Sample.C108_built",
    "Verif.Sample.C108_chaining"
   ],
   "note": "A script has one toolchain; C109 has several.  A target that takes generated files has the root directory of the project; generators have no inputs in the build directory.  As in C84, files are not edited at the moments named in Delicate."
  },
  {
   "property": "C109",
   "status": "proved",
   "theorems": [
    "Verif.Sample.C109_accepted",
    "Verif.Sample.C109_plain",
    "Verif.Sample.C109_built",
    "Verif.Sample.C109_mixed",
    "Verif.Sample.C109_samples",
    "Verif.Sample.C109_chaining"
   ],
   "note": "Toolchains that are on have different names without brackets; C110 is for states that change from run to run.  Otherwise as in C108."
  },
  {
   "property": "C11",
   "status": "proved",
   "theorems": [
    "Verif.Target.C11_phase_order",
    "Verif.Target.C11_state_written_last"
   ],
   "note": ""
  },
  {
   "property": "C110",
   "status": "proved",
   "theorems": [
    "Verif.Reg.C110_choices",
    "Verif.Sample.C110_run",
    "Verif.Sample.C110_built",
    "Verif.Sample.C110_samples"
   ],
   "note": "All toolchains of the script, also those that are off, keep to the rules of C109.  Directories are listed alike in all runs (list), so that the targets do not change."
  },
  {
   "property": "C111",
   "status": "proved",
   "theorems": [
    "Verif.Reg.C111_choices",
    "Verif.Reg.C111_same",
    "Verif.Sample.C111_contents",
    "Verif.Sample.C111_reproducible"
   ],
   "note": "As in C110, and the tools are functions of what they read (M, as in C101).  The order of the sources in a command is some permutation of them, as the sources come from an unordered set.  hsame is about the files that no builder makes."
  },
  {
   "property": "C112",
   "status": "partial",
   "theorems": [
    "Verif.Sample.C112_built_partial",
    "Verif.Sample.C112_contents_partial",
    "Verif.Sample.C112_reproducible_partial"
   ],
   "note": "A builder whose run was killed is not configured otherwise before one of its runs stored its state (Resumes in AllOfVersions); C100_killed_false shows that this is needed.  A toolchain and the type and directory of a target are not edited (NeatEditions)."
  },
  {
   "property": "C113",
   "status": "proved",
   "theorems": [
    "Verif.Sample.C113_again",
    "Verif.Sample.C113_affected",
    "Verif.Sample.C113_aside",
    "Verif.Sample.C113_commands"
   ],
   "note": "The history before the first of the two builds is arbitrary.  The two builds are not disturbed; C110 is about builds that are.  Fits says that the commands of generators, and their number, are shorter than 2^32."
  },
  {
   "property": "C114",
   "status": "proved",
   "theorems": [
    "Verif.Reg.C114_result",
    "Verif.Reg.C114_succeeds",
    "Verif.Reg.C114_ends",
    "Verif.Reg.C114_deleted_false",
    "Verif.Sample.C114_script",
    "Verif.Sample.C114_first"
   ],
   "note": "C114_deleted_false: without the condition on what earlier runs have made (Unbuilt in Provided, Ready) the claim is false of the code, as a library or a generated file that is deleted by hand is not made again.  The build is not disturbed (RunsScript); ending is by events of the build itself, as in C38.  FileGens in C114_script: in the scripts run before, the generators of these names are file generators too, so that their stored data can be read.  That a link command that succeeds leaves its output is part of the model (legal in Reg/World); that a callback does is assumed (Thorough)."
  },
  {
   "property": "C115",
   "status": "proved",
   "theorems": [
    "Verif.Reg.C115_commands",
    "Verif.Reg.C115_same",
    "Verif.Reg.C115_files",
    "Verif.Reg.C115_result",
    "Verif.Reg.C115_failed_false",
    "Verif.Sample.C115_script"
   ],
   "note": "Follows: whether a command succeeds and which files it writes is a function of the builder and the command (Behaviour); of the files of a command that fails nothing is assumed.  Timeless: the scripts give paths, not times, to their targets, as the API does.  Both builds are not disturbed (RunsScript).  C115_failed_false: the commands of builds that fail depend on the schedule."
  },
  {
   "property": "C116",
   "status": "partial",
   "theorems": [
    "Verif.WinArgv.C116_path",
    "Verif.WinArgv.C116_compile",
    "Verif.WinArgv.C116_compile_partial",
    "Verif.WinArgv.C116_pch",
    "Verif.WinArgv.C116_link",
    "Verif.WinArgv.C116_test",
    "Verif.WinArgv.C116_generator",
    "Verif.WinArgv.C116_generator_quoted",
    "Verif.WinArgv.C116_script",
    "Verif.WinArgv.C116_source_false",
    "Verif.WinArgv.C116_backslash_false"
   ],
   "note": "The documented rules of the Microsoft C runtime, in Command/WinArgs. Every path is one argument only for sources and include directories without spaces (C116_source_false); formatted paths exactly if they do not end with a backslash and have a space (C116_path). Paths are joined with / in the model."
  },
  {
   "property": "C117",
   "status": "proved",
   "theorems": [
    "Verif.Reg.C117_unnamed",
    "Verif.Reg.C117_two",
    "Verif.Sample.C117_built"
   ],
   "note": "Within / CoversScript: P has all inputs and all possible outputs of the scripts in it (Kind.files).  The compiler and the directories of a target do not change; what a compiler reads without being named is outside of the model, as everywhere."
  },
  {
   "property": "C118",
   "status": "partial",
   "theorems": [
    "Verif.WinPath.C118_spelling",
    "Verif.WinPath.C118_preferred",
    "Verif.WinPath.C118_again",
    "Verif.WinPath.C118_again_false",
    "Verif.WinPath.C118_places",
    "Verif.WinPath.C118_drive",
    "Verif.WinPath.C118_join",
    "Verif.WinPath.C118_objects_exact",
    "Verif.WinPath.C118_objects_partial",
    "Verif.WinPath.C118_inside",
    "Verif.WinPath.C118_other_drive",
    "Verif.WinPath.C118_other_drive_false",
    "Verif.WinPath.C118_argument",
    "Verif.WinPath.C118_directory_false"
   ],
   "note": "Distinct objects only for sources on the drive of the root directory (C118_other_drive_false: on another drive, or the same drive with the other case, only the file name counts). One argument exactly unless the path has a space and ends with a separator. File names have no colon. UNC paths are not modelled."
  },
  {
   "property": "C119",
   "status": "partial",
   "theorems": [
    "Verif.Boot.C119_os",
    "Verif.Boot.C119_linux_false",
    "Verif.Boot.C119_host",
    "Verif.Boot.C119_bootstrap_linux",
    "Verif.Boot.C119_process_exact",
    "Verif.Boot.C119_process_partial",
    "Verif.Boot.C119_process_false",
    "Verif.Boot.C119_flags",
    "Verif.Boot.C119_link"
   ],
   "note": "Exact for all sets of macros. get_host_os is wrong on Linux (C119_linux_false), the sources for processes with Clang on Windows and GCC on macOS (C119_process_false). Which macros a compiler defines is taken from its documentation (gccLinux, clangLinux, ...)."
  },
  {
   "property": "C12",
   "status": "partial",
   "theorems": [
    "Verif.Target.C12_crash_safe_partial",
    "Verif.Target.C12_unreadable_state_safe",
    "Verif.Target.C12_crash_points",
    "Verif.Generator.C12_crash_points",
    "Verif.Target.C12_crash_and_revert_false",
    "Verif.Target.C12_old_stamp_false"
   ],
   "note": "One configuration with any number of crashes, and any configuration once the state file is unreadable. Missing: a crash followed by going back to older flags, or to an older version of a file with its old time stamp, for which the claim is false (see Refute.lean)."
  },
  {
   "property": "C120",
   "status": "proved",
   "theorems": [
    "Verif.Life.C120_exact",
    "Verif.Life.C120_rule",
    "Verif.Life.C120_exit",
    "Verif.Life.C120_storage",
    "Verif.Life.C120_samples",
    "Verif.Life.C120_callback_false",
    "Verif.Life.C120_blob_false"
   ],
   "note": "Objects, references and what may read them, as events; what a read does is not part of the model. Which of the tasks of a target read the toolchain depends on what has to be built: the model takes it that any may. C120_callback_false and C120_blob_false are the two ways in which a script breaks the condition most easily."
  },
  {
   "property": "C121",
   "status": "partial",
   "theorems": [
    "Verif.Path.C121_targets",
    "Verif.Path.C121_state",
    "Verif.Path.C121_objects",
    "Verif.Path.C121_sources_partial",
    "Verif.Path.C121_names_false",
    "Verif.WinPath.C121_windows",
    "Verif.WinPath.C121_windows_state",
    "Verif.WinPath.C121_windows_false"
   ],
   "note": "C121_sources_partial: the sources are inside of the root directory, with no two dots in a row in their path, as in C21. C121_names_false: names that differ only in case. Only the letters A to Z have two cases in the model. Paths are written with \"/\", except in C121_windows and C121_windows_state, which are about paths with a root directory and both separators."
  },
  {
   "property": "C122",
   "status": "proved",
   "theorems": [
    "Verif.Path.C122_generators",
    "Verif.Path.C122_state",
    "Verif.Path.C122_target",
    "Verif.Path.C122_target_state",
    "Verif.Path.C122_target_state_case",
    "Verif.Path.C122_names_false",
    "Verif.WinPath.C122_windows",
    "Verif.WinPath.C122_windows_target",
    "Verif.WinPath.C122_windows_state"
   ],
   "note": "Plain names: not empty, not . or .., no separator. The texts below the directories have no .. in them. C122_names_false: a generator with the name of a toolchain. The theorems with windows in the name are about paths with a root directory, with both separators and drives."
  },
  {
   "property": "C123",
   "status": "proved",
   "theorems": [
    "Verif.Target.C123_exact",
    "Verif.Target.C123_distinct",
    "Verif.Target.C123_extension",
    "Verif.Target.C123_executable",
    "Verif.Target.C123_name_false"
   ],
   "note": "Sources inside of the root directory, with no two dots in a row in their path, as in C21; no source is called buildcc_pch (without an extension it is not a source of a shipped toolchain). C123_name_false: an executable that is called main.cpp.o."
  },
  {
   "property": "C13",
   "status": "proved",
   "theorems": [
    "Verif.Target.C13_removed_source"
   ],
   "note": ""
  },
  {
   "property": "C14",
   "status": "proved",
   "theorems": [
    "Verif.Target.C14_link_inputs",
    "Verif.Target.C14_no_state"
   ],
   "note": ""
  },
  {
   "property": "C15",
   "status": "proved",
   "theorems": [
    "Verif.Schema.target_state_round_trip",
    "Verif.Schema.target_text_injective"
   ],
   "note": ""
  },
  {
   "property": "C16",
   "status": "proved",
   "theorems": [
    "Verif.Schema.generator_state_round_trip"
   ],
   "note": ""
  },
  {
   "property": "C17",
   "status": "proved",
   "theorems": [
    "Verif.Schema.target_truncated_rejected",
    "Verif.Schema.generator_truncated_rejected"
   ],
   "note": ""
  },
  {
   "property": "C18",
   "status": "proved",
   "theorems": [
    "Verif.Schema.target_load_all_or_nothing",
    "Verif.Schema.document_unique",
    "Verif.Schema.generator_load_all_or_nothing",
    "Verif.Schema.target_load_missing_key"
   ],
   "note": ""
  },
  {
   "property": "C19",
   "status": "proved",
   "theorems": [
    "Verif.Schema.target_store_outcome",
    "Verif.Schema.generator_store_outcome",
    "Verif.Target.C19_store_failure_reported"
   ],
   "note": "An error while bytes are flushed to an opened file is not reported by the code and is outside of the statement."
  },
  {
   "property": "C20",
   "status": "proved",
   "theorems": [
    "Verif.Path.normal_idempotent",
    "Verif.Path.normal_no_dot",
    "Verif.Path.normal_no_name_dotdot",
    "Verif.Path.normal_no_empty",
    "Verif.Path.normal_skip_dot",
    "Verif.Path.normal_skip_slash",
    "Verif.Path.normal_skip_updown"
   ],
   "note": ""
  },
  {
   "property": "C21",
   "status": "partial",
   "theorems": [
    "Verif.Path.object_path_injective_inside_root_partial",
    "Verif.Path.object_path_injective_no_underscore_partial",
    "Verif.Path.object_path_collision_outside_root",
    "Verif.Path.object_path_collision_underscores",
    "Verif.Path.object_path_collision_inside_root",
    "Verif.Path.object_path_collision_dotdot_root",
    "Verif.Path.C21_exact"
   ],
   "note": "C21_exact says which sources share an object. The unrestricted property is false of the code: the collision theorems are counterexamples. Proved for sources inside the root without \"..\" and for relative directories without underscores."
  },
  {
   "property": "C22",
   "status": "proved",
   "theorems": [
    "Verif.Path.object_path_inside_build"
   ],
   "note": ""
  },
  {
   "property": "C23",
   "status": "proved",
   "theorems": [
    "Verif.Path.path_display_exact",
    "Verif.Path.path_display_one_word",
    "Verif.Path.path_display_quote_broken"
   ],
   "note": "About paths inserted as paths. Sources, include directories, library directories and libraries are inserted as plain strings and are not quoted at all."
  },
  {
   "property": "C24",
   "status": "proved",
   "theorems": [
    "Verif.Command.construct_meaning",
    "Verif.Command.construct_value_iff",
    "Verif.Command.construct_no_rescan",
    "Verif.Command.construct_text",
    "Verif.Command.construct_perm"
   ],
   "note": ""
  },
  {
   "property": "C25",
   "status": "proved",
   "theorems": [
    "Verif.Command.construct_missing_fatal",
    "Verif.Command.construct_lone_close_fatal",
    "Verif.Command.construct_lone_open_fatal",
    "Verif.Command.construct_value_iff",
    "Verif.Target.C25_start"
   ],
   "note": ""
  },
  {
   "property": "C26",
   "status": "partial",
   "theorems": [
    "Verif.Command.construct_argument_used_partial",
    "Verif.Command.construct_default_shadows_argument",
    "Verif.Command.construct_default_wins",
    "Verif.Command.default_first_wins",
    "Verif.Command.default_added",
    "Verif.Command.default_frame",
    "Verif.Command.C26_exact"
   ],
   "note": "False of the code when a default of the same name exists (construct_default_shadows_argument); proved otherwise."
  },
  {
   "property": "C27",
   "status": "proved",
   "theorems": [
    "Verif.Target.gcc_compile_command",
    "Verif.Target.msvc_compile_command",
    "Verif.Target.gcc_pch_command",
    "Verif.Target.msvc_pch_command",
    "Verif.Target.gcc_executable_link_command",
    "Verif.Target.gcc_static_link_command",
    "Verif.Target.gcc_dynamic_link_command",
    "Verif.Target.mingw_dynamic_link_command",
    "Verif.Target.msvc_executable_link_command",
    "Verif.Target.msvc_static_link_command",
    "Verif.Target.msvc_dynamic_link_command",
    "Verif.Target.gcc_compile_words",
    "Verif.Target.compile_source_space_split",
    "Verif.Target.gcc_dynamic_ignores_libs",
    "Verif.Target.C27_placeholders"
   ],
   "note": "Exact text of every shipped template. The dynamic library templates leave out library directories and libraries (gcc_dynamic_ignores_libs); sources with a space are split by the shell (compile_source_space_split)."
  },
  {
   "property": "C28",
   "status": "proved",
   "theorems": [
    "Verif.Generator.C28_only_needed",
    "Verif.Generator.C28_exactly_needed"
   ],
   "note": ""
  },
  {
   "property": "C29",
   "status": "partial",
   "theorems": [
    "Verif.Generator.C29_general_partial",
    "Verif.Generator.C29_one_configuration_partial",
    "Verif.Generator.C29_edit_during_run_false",
    "Verif.Generator.C29_crash_and_revert_false",
    "Verif.Generator.C29_old_stamp_false"
   ],
   "note": "Every history, schedule, failure and crash point in which the inputs of an id do not change between the start of its callback (or the moment when it is found unchanged) and the end of the run, no file gets an old time stamp back, and a change is not taken back after a run that called something without storing. Otherwise false: the three theorems ending in _false."
  },
  {
   "property": "C30",
   "status": "proved",
   "theorems": [
    "Verif.Generator.C30_null_run"
   ],
   "note": "Blob handlers must find their own data equal to itself."
  },
  {
   "property": "C31",
   "status": "proved",
   "theorems": [
    "Verif.Generator.C31_failed_retried"
   ],
   "note": "Nothing outside of the generator failed and the state could be stored."
  },
  {
   "property": "C32",
   "status": "proved",
   "theorems": [
    "Verif.Generator.C32_removed_id"
   ],
   "note": ""
  },
  {
   "property": "C33",
   "status": "partial",
   "theorems": [
    "Verif.Generator.C33_data_changed_partial",
    "Verif.Generator.C33_handler_removed_false",
    "Verif.Generator.C33_handler_added_false",
    "Verif.Generator.C33_exact"
   ],
   "note": "Changed data: proved, and C33_exact says when the callback runs. Removed handler: not noticed. Added handler: the run fails if Verify rejects the empty blob."
  },
  {
   "property": "C34",
   "status": "proved",
   "theorems": [
    "Verif.Generator.C34_in_order",
    "Verif.Generator.C34_given_commands",
    "Verif.Generator.C34_rerun_iff"
   ],
   "note": "Commands shorter than 2^32 bytes and fewer than 2^32 of them (the limit of the msgpack encoding)."
  },
  {
   "property": "C35",
   "status": "proved",
   "theorems": [
    "Verif.Generator.C35_substituted",
    "Verif.Generator.C35_only_substituted",
    "Verif.Generator.C35_unknown_placeholder",
    "Verif.Generator.C35_failure_untouched"
   ],
   "note": ""
  },
  {
   "property": "C36",
   "status": "proved",
   "theorems": [
    "Verif.Generator.C36_roundtrip",
    "Verif.Generator.C36_changed_iff",
    "Verif.Generator.C36_injective",
    "Verif.Generator.C36_accepted",
    "Verif.Generator.C36_verify"
   ],
   "note": "Lists and strings shorter than 2^32."
  },
  {
   "property": "C37",
   "status": "partial",
   "theorems": [
    "Verif.Reg.C37_valid",
    "Verif.Reg.C37_acyclic_partial",
    "Verif.Reg.C37_rejected_iff_partial",
    "Verif.Reg.C37_unregistered",
    "Verif.Reg.C37_self_false",
    "Verif.Reg.C37_self_hangs",
    "Verif.Reg.C37_dep_exact",
    "Verif.Reg.C37_cycles"
   ],
   "note": "Every sequence of registration calls without a target depending on itself. False for Dep(a, a): it is accepted, leaves a cycle and the next search does not end (C37_self_false, C37_self_hangs). With self-dependencies included, C37_dep_exact says for every graph which of the three things Dep does, and C37_cycles that self-dependencies are the only cycles."
  },
  {
   "property": "C38",
   "status": "partial",
   "theorems": [
    "Verif.Reg.C38_order",
    "Verif.Reg.C38_once",
    "Verif.Reg.C38_all_executed_partial",
    "Verif.Reg.C38_bounded",
    "Verif.Reg.C38_progress",
    "Verif.Reg.C38_self_false",
    "Verif.Reg.C38_executed_iff",
    "Verif.Reg.C38_script"
   ],
   "note": "Every history of several builders. Order, at-most-once, termination hold for every graph; that all builders are executed holds for graphs without cycles and is refuted for a builder declared to depend on itself, which Reg::Dep accepts. Which builders are executed is stated exactly: C38_executed_iff for every graph, C38_script for every accepted script."
  },
  {
   "property": "C39",
   "status": "proved",
   "theorems": [
    "Verif.Reg.C39_dependents",
    "Verif.Reg.C39_no_return",
    "Verif.Reg.C39_return"
   ],
   "note": "Every history, graph, schedule and failure pattern. A failing test (Reg::Test) is outside of the model."
  },
  {
   "property": "C40",
   "status": "partial",
   "theorems": [
    "Verif.Reg.C40_one_script_partial",
    "Verif.Reg.C40_written",
    "Verif.Reg.C40_linked_partial",
    "Verif.Reg.C40_up_to_date_partial",
    "Verif.Reg.C40_undeclared_false"
   ],
   "note": "One script run again and again with any edits between builds and during earlier builds, failures and kills; or changing scripts that keep to the stated rules. No file is edited during the run the claim is about, nor at the moments named in Delicate, and no file gets an old time stamp back. Without Reg::Dep the claim is refuted."
  },
  {
   "property": "C41",
   "status": "proved",
   "theorems": [
    "Verif.Reg.C41_disabled_calls",
    "Verif.Reg.C41_test",
    "Verif.Reg.C41_build"
   ],
   "note": ""
  },
  {
   "property": "C42",
   "status": "proved",
   "theorems": [
    "Verif.Env.C42_ref",
    "Verif.Env.C42_unique",
    "Verif.Env.C42_fatal",
    "Verif.Env.C42_contains_valid",
    "Verif.Env.C42_add_partial",
    "Verif.Env.C42_add_in_use_false"
   ],
   "note": "Every sequence of Add, Clear and Ref calls. Beyond the claim: the object that Add returns is the one that Ref returns when the identifier was not in use (C42_add_partial), and is not when it was (C42_add_in_use_false)."
  },
  {
   "property": "C43",
   "status": "partial",
   "theorems": [
    "Verif.Env.C43_at_most_once",
    "Verif.Env.C43_reachable_alive",
    "Verif.Env.C43_all_deleted_partial",
    "Verif.Env.C43_leak_false",
    "Verif.Env.C43_exact"
   ],
   "note": "At most once and never while reachable: proved for every sequence. That Clear deletes everything is false when an identifier is added twice (C43_leak_false). C43_exact says for every sequence and every object whether it is deleted."
  },
  {
   "property": "C44",
   "status": "proved",
   "theorems": [
    "Verif.Target.C44_copy",
    "Verif.Target.C44_insert"
   ],
   "note": "Copying a target into itself by Insert is undefined behaviour of the standard library and outside of the model."
  },
  {
   "property": "C45",
   "status": "partial",
   "theorems": [
    "Verif.Target.C45_copy_partial",
    "Verif.Target.C45_insert_partial",
    "Verif.Target.C45_copy_repeated_false",
    "Verif.Target.C45_insert_repeated_false",
    "Verif.Target.C45_copy_exact",
    "Verif.Target.C45_insert_exact",
    "Verif.Target.C45_copy_iff",
    "Verif.Target.C45_insert_iff"
   ],
   "note": "Option lists without repetition. False for repeated options, because the second one reads a moved-from list: the exact theorems say what the target is then."
  },
  {
   "property": "C46",
   "status": "partial",
   "theorems": [
    "Verif.Toolchain.C46_find_partial",
    "Verif.Toolchain.C46_plain_names",
    "Verif.Toolchain.C46_dotted_false",
    "Verif.Toolchain.C46_extension_false"
   ],
   "note": "Exact characterisation of the result with the comparison by stem that the code uses; it is what the property says for executable names without a dot. Otherwise false."
  },
  {
   "property": "C47",
   "status": "proved",
   "theorems": [
    "Verif.Toolchain.C47_verify",
    "Verif.Toolchain.C47_fatal",
    "Verif.Toolchain.C47_again_false"
   ],
   "note": "Both directions proved for every host. A second Verify of the same toolchain is always fatal (C47_again_false)."
  },
  {
   "property": "C48",
   "status": "partial",
   "theorems": [
    "Verif.Target.C48_accepted_partial",
    "Verif.Target.C48_compiled",
    "Verif.Target.C48_refused",
    "Verif.Target.C48_copied_false",
    "Verif.Target.C48_origin",
    "Verif.Target.C48_own",
    "Verif.Target.C48_unclassified"
   ],
   "note": "Every sequence of calls. C48_origin: a file without an extension of the toolchain was taken from another target by Copy or Insert; C48_own: without these calls there is none; C48_unclassified: what is run for such a file. False for sources copied or inserted from a target with another toolchain configuration."
  },
  {
   "property": "C49",
   "status": "partial",
   "theorems": [
    "Verif.Toolchain.C49_config_false",
    "Verif.Toolchain.C49_made_partial",
    "Verif.Toolchain.C49_base",
    "Verif.Toolchain.C49_exact"
   ],
   "note": "False of the code: the specialised toolchains ignore the configuration. Proved: the rest of what is created, and which configuration they have (C49_exact)."
  },
  {
   "property": "C50",
   "status": "proved",
   "theorems": [
    "Verif.Target.C50_new",
    "Verif.Target.C50_flags"
   ],
   "note": ""
  },
  {
   "property": "C51",
   "status": "proved",
   "theorems": [
    "Verif.Env.C51_split",
    "Verif.Env.C51_split_trailing",
    "Verif.Env.C51_split_every",
    "Verif.Toolchain.C51_search"
   ],
   "note": "An empty last item is dropped (C51_split_trailing)."
  },
  {
   "property": "C52",
   "status": "partial",
   "theorems": [
    "Verif.Env.C52_trim_partial",
    "Verif.Env.C52_trim_defined",
    "Verif.Env.C52_trim_unique",
    "Verif.Env.C52_trim_idem",
    "Verif.Env.C52_undefined",
    "Verif.Env.C52_exact"
   ],
   "note": "Wherever the behaviour is defined. Bytes from 128 to 254 at an end are passed to isspace as negative values, which is undefined (C52_undefined)."
  },
  {
   "property": "C53",
   "status": "partial",
   "theorems": [
    "Verif.Plugin.C53_database_partial",
    "Verif.Plugin.C53_exact",
    "Verif.Plugin.C53_outcome",
    "Verif.Plugin.C53_commands",
    "Verif.Plugin.C53_quote_false",
    "Verif.Plugin.C53_backslash_false",
    "Verif.Plugin.C53_space_false"
   ],
   "note": "Strings without quote, backslash and control characters, build directory without space. False otherwise, for every set of targets with a source: C53_exact says for which strings the file holds the database."
  },
  {
   "property": "C54",
   "status": "partial",
   "theorems": [
    "Verif.Path.target_dirs_disjoint",
    "Verif.Path.target_files_distinct",
    "Verif.Path.target_id_injective",
    "Verif.Path.target_dirs_collision",
    "Verif.Path.target_id_collision",
    "Verif.Path.target_output_is_state",
    "Verif.Path.generator_target_collision",
    "Verif.Path.C54_id_exact",
    "Verif.Path.C54_dir_exact"
   ],
   "note": "C54_id_exact and C54_dir_exact say which identifiers and which build directories are the same. Proved for plain names; false for names with \"/\" (and identifiers for toolchain names with \"]\"): collision theorems."
  },
  {
   "property": "C55",
   "status": "proved",
   "theorems": [
    "Verif.Target.pch_header_text",
    "Verif.Target.pch_header_injective"
   ],
   "note": ""
  },
  {
   "property": "C56",
   "status": "partial",
   "theorems": [
    "Verif.Target.C56_recreated_without_state_partial",
    "Verif.Target.C56_deleted_object_false",
    "Verif.Target.C56_ignored_false"
   ],
   "note": "False of the code (C56_deleted_object_false). Proved: once the state file is deleted too, everything is recreated."
  },
  {
   "property": "C57",
   "status": "partial",
   "theorems": [
    "Verif.Target.C57_rebuilt_without_state_partial",
    "Verif.Target.C57_toolchain_change_false",
    "Verif.Target.C57_ignored_false"
   ],
   "note": "False of the code (C57_toolchain_change_false): the stored state does not contain the toolchain. Proved: without a state file everything is rebuilt."
  },
  {
   "property": "C58",
   "status": "proved",
   "theorems": [
    "Verif.Target.C58_failure_is_final",
    "Verif.Reg.C58_seen"
   ],
   "note": "Every interleaving of the micro steps of the target tasks and of failures signalled by other targets; the flag is read and written in single steps here; in the code its reads are not synchronised, see C83."
  },
  {
   "property": "C59",
   "status": "partial",
   "theorems": [
    "Verif.Target.C59_fixpoint_partial",
    "Verif.Target.C59_repeated_source_false",
    "Verif.Target.C59_exact"
   ],
   "note": "False of the code (C59_repeated_source_false): a repeated source is compiled again in every run. Proved for lists without repetition; C59_exact says that this is exactly when it holds."
  },
  {
   "property": "C60",
   "status": "proved",
   "theorems": [
    "Verif.Target.C60_bounded",
    "Verif.Target.C60_progress",
    "Verif.Target.C60_completes"
   ],
   "note": "One target; commands are assumed to return."
  },
  {
   "property": "C61",
   "status": "partial",
   "theorems": [
    "Verif.Generator.C61_schedule_independent_partial",
    "Verif.Generator.C61_result",
    "Verif.Generator.C61_calls",
    "Verif.Generator.C61_failure_false"
   ],
   "note": "Successful runs. With a failing callback it depends on the schedule which others run (C61_failure_false); whether the run succeeds and what the callbacks that run are given do not depend on it (C61_result, C61_calls)."
  },
  {
   "property": "C62",
   "status": "partial",
   "theorems": [
    "Verif.Generator.C62_path_changed_partial",
    "Verif.Generator.C62_pattern_change_false",
    "Verif.Generator.C62_exact"
   ],
   "note": "False of the code: only paths are tracked, not the values of the placeholders. Proved: a change that shows in the input or output path leads to a new run of that template."
  },
  {
   "property": "C63",
   "status": "proved",
   "theorems": [
    "Verif.Generator.C63_fail_stop"
   ],
   "note": ""
  },
  {
   "property": "C64",
   "status": "proved",
   "theorems": [
    "Verif.Generator.C64_bounded",
    "Verif.Generator.C64_initial",
    "Verif.Generator.C64_progress",
    "Verif.Generator.C64_completes"
   ],
   "note": "One generator; callbacks are assumed to return."
  },
  {
   "property": "C65",
   "status": "proved",
   "theorems": [
    "Verif.Toolchain.C65_search"
   ],
   "note": ""
  },
  {
   "property": "C66",
   "status": "proved",
   "theorems": [
    "Verif.Toolchain.C66_fatal",
    "Verif.Toolchain.C66_new"
   ],
   "note": ""
  },
  {
   "property": "C67",
   "status": "proved",
   "theorems": [
    "Verif.Target.C67_rejected",
    "Verif.Target.C67_inputs",
    "Verif.Target.C67_copied"
   ],
   "note": ""
  },
  {
   "property": "C68",
   "status": "proved",
   "theorems": [
    "Verif.Generator.C68_ids",
    "Verif.Generator.C68_duplicate",
    "Verif.Generator.C68_paths",
    "Verif.Generator.C68_pattern",
    "Verif.Generator.C68_directories"
   ],
   "note": ""
  },
  {
   "property": "C69",
   "status": "partial",
   "theorems": [
    "Verif.Plugin.C69_current_partial",
    "Verif.Plugin.C69_rebuilt",
    "Verif.Plugin.C69_false"
   ],
   "note": "False of the code when no target is rebuilt in the run: a new target is missing and a deleted file stays deleted."
  },
  {
   "property": "C70",
   "status": "proved",
   "theorems": [
    "Verif.Target.C70_fatal",
    "Verif.Target.C70_made",
    "Verif.Target.C70_custom",
    "Verif.Target.C70_same"
   ],
   "note": "For Clang and custom toolchains a generic target is fatal even when a configuration is given, because the default is evaluated eagerly; C70_fatal states this."
  },
  {
   "property": "C71",
   "status": "proved",
   "theorems": [
    "Verif.Target.C71_gcc",
    "Verif.Target.C71_msvc",
    "Verif.Target.C71_exact",
    "Verif.Target.C71_extension_false"
   ],
   "note": "The statement is about the shipped configurations, which meet the hypotheses on the two extensions. For every other extension of compiled headers C71_exact says exactly when objects include the header that is compiled; it is false for an empty one."
  },
  {
   "property": "C72",
   "status": "proved",
   "theorems": [
    "Verif.Generator.C72_built",
    "Verif.Generator.C72_unique"
   ],
   "note": ""
  },
  {
   "property": "C73",
   "status": "partial",
   "theorems": [
    "Verif.Generator.C73_built",
    "Verif.Generator.C73_distinct_partial",
    "Verif.Generator.C73_builds_partial",
    "Verif.Generator.C73_duplicate",
    "Verif.Generator.C73_root_false",
    "Verif.Generator.C73_exact"
   ],
   "note": "C73_exact says when Build goes through. Inputs that can be reached from the root directory. False for a root directory with dot-dot parts: inputs below the working directory all get the empty name, so the second one is fatal."
  },
  {
   "property": "C74",
   "status": "proved",
   "theorems": [
    "Verif.Reg.C74_initialized",
    "Verif.Reg.C74_not_initialized",
    "Verif.Reg.C74_init",
    "Verif.Reg.C74_parsed",
    "Verif.Reg.C74_exit",
    "Verif.Reg.C74_project",
    "Verif.Reg.C74_bad_line",
    "Verif.Reg.C74_clean_false"
   ],
   "note": "What remains of an earlier command line is stated too: --clean outlives Args::Deinit, C74_clean_false."
  },
  {
   "property": "C75",
   "status": "partial",
   "theorems": [
    "Verif.Reg.C75_run_order",
    "Verif.Reg.C75_at_most_once",
    "Verif.Reg.C75_all_run",
    "Verif.Reg.C75_failure_partial",
    "Verif.Reg.C75_failure_false"
   ],
   "note": "Whether a failing test makes the process fail depends on what taskflow does with exceptions: proved for one policy, refuted for the other."
  },
  {
   "property": "C76",
   "status": "partial",
   "theorems": [
    "Verif.Reg.C76_command",
    "Verif.Reg.C76_only_command",
    "Verif.Reg.C76_output_partial",
    "Verif.Reg.C76_failed_output_false",
    "Verif.Reg.C76_pieces_false",
    "Verif.Reg.C76_exact"
   ],
   "note": "The output of a failing test is dropped and output in several pieces is printed with spaces in between; both are proved."
  },
  {
   "property": "C77",
   "status": "partial",
   "theorems": [
    "Verif.Toolchain.C77_gcc_partial",
    "Verif.Toolchain.C77_msvc",
    "Verif.Toolchain.C77_custom",
    "Verif.Toolchain.C77_newline_false",
    "Verif.Toolchain.C77_space_false"
   ],
   "note": "For GCC, MinGW and Clang only the first piece of the answer is used, with its newline, and the compiler is not quoted."
  },
  {
   "property": "C78",
   "status": "proved",
   "theorems": [
    "Verif.Exe.C78_target",
    "Verif.Exe.C78_parent",
    "Verif.Exe.C78_refused"
   ],
   "note": "The list of include directories of the library is inserted twice, because the option is repeated; fromBuildcc says so."
  },
  {
   "property": "C79",
   "status": "partial",
   "theorems": [
    "Verif.Exe.C79_run_partial",
    "Verif.Exe.C79_status_false"
   ],
   "note": "The result of the script is ignored: buildexe ends with status 0 whatever the script does."
  },
  {
   "property": "C80",
   "status": "partial",
   "theorems": [
    "Verif.Exe.C80_header_partial",
    "Verif.Exe.C80_libs_partial",
    "Verif.Exe.C80_space_false",
    "Verif.Exe.C80_name_false",
    "Verif.Exe.C80_exact"
   ],
   "note": "Directory names that are identifiers and paths without spaces, quotes, backslashes and newlines. False for a path with a space and for a name such as my-lib."
  },
  {
   "property": "C81",
   "status": "partial",
   "theorems": [
    "Verif.Exe.C81_again_partial",
    "Verif.Exe.C81_script_false"
   ],
   "note": "Immediate mode, without a repeated source. False in script mode: the generated header is written in every run and is an input, so every source is compiled again."
  },
  {
   "property": "C82",
   "status": "proved",
   "theorems": [
    "Verif.Target.C82_compile",
    "Verif.Target.C82_link",
    "Verif.Target.C82_pch"
   ],
   "note": ""
  },
  {
   "property": "C83",
   "status": "partial",
   "theorems": [
    "Verif.Race.C83_races_partial",
    "Verif.Race.C83_no_failure_partial",
    "Verif.Race.C83_no_deadlock",
    "Verif.Race.C83_task_state_false",
    "Verif.Race.C83_shared_vector_false"
   ],
   "note": "False of the task state: get_task_state reads it without a lock while set_task_state writes it, so a build in which a task fails has a data race, C83_task_state_false. Every other memory is free of races if no two tests redirect to the same vector."
  },
  {
   "property": "C84",
   "status": "proved",
   "theorems": [
    "Verif.Reg.C84_project"
   ],
   "note": "The rules are the fields of PlainScript. OwnName: the output of a library is not named like one of its objects."
  },
  {
   "property": "C85",
   "status": "partial",
   "theorems": [
    "Verif.Boot.C85_inputs",
    "Verif.Boot.C85_includes",
    "Verif.Boot.C85_plain",
    "Verif.Boot.C85_built",
    "Verif.Boot.C85_forgotten_false"
   ],
   "note": "The last sentence is false: the headers of lib/args/include/args/register and lib/target/include/target/custom_generator are in no target, so editing them rebuilds nothing, C85_forgotten_false. The rest is proved. The checkout is described by the structure Checkout."
  },
  {
   "property": "C86",
   "status": "proved",
   "theorems": [
    "Verif.Exe.C86_script",
    "Verif.Exe.C86_ran"
   ],
   "note": "The place where buildexe runs is described by the structure Workspace. That the program was linked with a library is stated for libraries nobody writes by hand. The inputs are those the targets are given; headers they are not given are in C85."
  },
  {
   "property": "C87",
   "status": "partial",
   "theorems": [
    "Verif.Exe.C87_target",
    "Verif.Exe.C87_tried",
    "Verif.Exe.C87_runs_partial",
    "Verif.Exe.C87_space_false",
    "Verif.Exe.C87_exact"
   ],
   "note": "That a working toolchain passes is proved for paths without spaces and quotes; with a space in the path of the build directory it is refuted."
  },
  {
   "property": "C88",
   "status": "proved",
   "theorems": [
    "Verif.Reg.C88_mixed",
    "Verif.Reg.C88_commands"
   ],
   "note": "The rules are the fields of PlainProject. Files written by hand into the place of outputs of generators are not noticed, see C56."
  },
  {
   "property": "C89",
   "status": "partial",
   "theorems": [
    "Verif.Cli.C89_toolchain_partial",
    "Verif.Cli.C89_target",
    "Verif.Cli.C89_fatal",
    "Verif.Cli.C89_constructed",
    "Verif.Cli.C89_config_false",
    "Verif.Cli.C89_defaults_false"
   ],
   "note": "Two parts are false: the configuration of initial is not used, C89_config_false, and without executables the toolchain has empty ones, C89_defaults_false. The rest is proved. What CLI11 does is trusted as described in Cli/Model."
  },
  {
   "property": "C90",
   "status": "proved",
   "theorems": [
    "Verif.Exe.C90_program",
    "Verif.Exe.C90_failed",
    "Verif.Exe.C90_cleaned",
    "Verif.Exe.C90_executables",
    "Verif.Exe.C90_kinds",
    "Verif.Exe.C90_ends"
   ],
   "note": "What setup, hostTarget, hostPasses and buildBuildCC do is the subject of C78, C87 and C85; conditions for making the target are in C78_refused. What CLI11 does is trusted as described in Cli/Model and Exe/Program."
  },
  {
   "property": "C91",
   "status": "partial",
   "theorems": [
    "Verif.Disk.C91_directories_partial",
    "Verif.Disk.C91_created",
    "Verif.Disk.C91_state_partial",
    "Verif.Disk.C91_made",
    "Verif.Disk.C91_generator_partial",
    "Verif.Disk.C91_commands",
    "Verif.Disk.C91_clean",
    "Verif.Disk.C91_template",
    "Verif.Disk.C91_slash_false",
    "Verif.Disk.C91_slash_exact",
    "Verif.Disk.C91_output_false",
    "Verif.Disk.C91_output_exact"
   ],
   "note": "False for a target whose name has a \"/\" (C91_slash_false; C91_slash_exact: for every disk and every name of two parts) and for outputs of generators in directories below the build directory of the generator (C91_output_false; exactly in C91_output_exact); everything else is proved."
  },
  {
   "property": "C92",
   "status": "partial",
   "theorems": [
    "Verif.Disk.C92_files_partial",
    "Verif.Disk.C92_space_false",
    "Verif.Disk.C92_exact"
   ],
   "note": "False for every target with a precompiled header when the path of the build directory has a space: the source is saved under its path in double quotes (C92_space_false). Proved for paths without a space."
  },
  {
   "property": "C93",
   "status": "proved",
   "theorems": [
    "Verif.Reg.C93_null_rebuild"
   ],
   "note": "The script declares its dependencies (Plan, see C40 for what happens otherwise); no source is listed twice and data handlers find data equal to itself (Regular)."
  },
  {
   "property": "C94",
   "status": "proved",
   "theorems": [
    "Verif.Reg.C94_only_affected",
    "Verif.Reg.C94_cause",
    "Verif.Reg.C94_commands",
    "Verif.Reg.C94_ids",
    "Verif.Reg.C94_root"
   ],
   "note": "Same conditions on the script as in C93."
  },
  {
   "property": "C95",
   "status": "partial",
   "theorems": [
    "Verif.Generator.C95_filled_partial",
    "Verif.Generator.C95_file",
    "Verif.Generator.C95_rerun",
    "Verif.Generator.C95_rerun_false",
    "Verif.Generator.C95_patterns_false"
   ],
   "note": "Sets: an id whose inputs or outputs are iterated in another order is generated again, and only then. Maps: only when no pattern uses another one of the same map, otherwise the order decides whether the program ends."
  },
  {
   "property": "C96",
   "status": "partial",
   "theorems": [
    "Verif.Reg.C96_bound",
    "Verif.Reg.C96_linear_partial",
    "Verif.Reg.C96_linear_false"
   ],
   "note": "The bound is exponential: 2^n rounds always suffice for n builders, and scripts with 2k+3 builders and two dependencies each need more than 2^k. Linear when every target has at most one dependency."
  },
  {
   "property": "C97",
   "status": "partial",
   "theorems": [
    "Verif.Target.C97_contents_partial",
    "Verif.Target.C97_unnoticed",
    "Verif.Target.C97_same_stamp_false"
   ],
   "note": "Under the conditions of C01 to C03, among them that no file gets a time stamp twice. False for an edit that keeps the time stamp, of any file of any target."
  },
  {
   "property": "C98",
   "status": "partial",
   "theorems": [
    "Verif.Generator.C98_contents_partial",
    "Verif.Generator.C98_tampered_false",
    "Verif.Generator.C98_same_stamp_false"
   ],
   "note": "Under the conditions of C29, among them that no input gets a time stamp twice. False for outputs that others changed or deleted, and for an edit that keeps the time stamp."
  },
  {
   "property": "C99",
   "status": "partial",
   "theorems": [
    "Verif.Reg.C99_contents_partial",
    "Verif.Reg.C99_reproducible_partial",
    "Verif.Reg.C99_project_partial",
    "Verif.Reg.C99_by_hand_false"
   ],
   "note": "For scripts that are run again unchanged, under the conditions of C40_one_script_partial (C99_project_partial: rules of C88). False for products that were changed by hand."
  }
 ]
}