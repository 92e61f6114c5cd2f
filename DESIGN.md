# Formal model of coder137/build_in_cpp ("buildcc") in Lean 4

This file says what is modelled, how each property of `properties.jsonl` is
stated and proved, what is false of the code, and what is trusted.  The code
under /repo is read as text and never built or run.

## Layout

Each area of `lean/Verif/` has executable definitions, each with a comment citing
the C++ file and lines it models (`Model.lean`, or a file named after what it
models), a small vocabulary that the theorems are phrased in (`*Spec.lean`),
helper proofs, and files `*Props.lean` (also `Props.lean`, `Refute.lean`,
`Report.lean`) with the property theorems, the refutations of properties that
the code violates, and the `example`s that show that concrete non-trivial cases
meet the hypotheses.  Property theorems have the number of the property in their
name, except for the first ones (`Path`, `Schema`, `Command`), which MANIFEST.json
assigns.

| area | model files | modelled files of /repo/buildcc |
|------|-------------|------|
| `Str` | Basic | byte strings |
| `Path` | Model | `schema/path.h` (normalisation, existence, display), path construction in `target.h`, `target.cpp`, `compile_object.cpp`, `compile_pch.cpp`, `link_target.cpp`, `custom_generator.h`; POSIX `std::filesystem::path` |
| `Json` | Model (parser and `dump(4)`), Grammar (specification: RFC 8259) | what `target_serialization.cpp` and `custom_generator_serialization.cpp` use of nlohmann/json |
| `Schema` | Model | `schema/target_schema.h`, `target_type.h`, `target_serialization.cpp`, `custom_generator_schema.h`, `custom_generator_serialization.cpp`, `interface/serialization_interface.h`, `path.h`, `env/util.h` (save and load) |
| `Command` | Model | `env/command.cpp`, `command.h`, `target/common/util.h`; `fmt::vformat` with named string arguments |
| `Target` | Model (a run: one micro step per access to shared state), Bytes (contents of files) | `target/src/target/tasks.cpp`, `build.cpp`, `friend/compile_object.cpp`, `compile_pch.cpp`, `link_target.cpp`, `recheck_states.cpp`, `env/task_state.cpp` |
| | Commands, Special | command templates and what a target passes to them: `target_config.h`, `target_gcc.h`, `target_msvc.h`, `target_mingw.h`, `target_generic.h`, `target_state.cpp`, `target_getter.cpp`, `target_env.h` |
| | Api, Sync | `target/api/*.h`, `lib_api.cpp`, `sync_api.cpp`, `target_info.*`, `toolchain/api/flag_api.h` |
| `Generator` | Model, Bytes (contents of files), Api, Msgpack, FileGen, FileApi, MsgpackGrammar (specification) | `custom_generator.*`, `custom_blob_handler.h`, `file_generator.*`, `template_generator.*` |
| `Reg` | Graph, World (several builders, their state files and schedules), Life (process-wide state), Bytes (contents of files), Tests | `args/register.*`, `args/src/tasks.cpp`, `args/args.*`, `args/parse.*`, `args/register/test_info.h`, `env/env.cpp` |
| `Env` | Storage, Util, Execute | `env/storage.h`, `env/util.h`, `env/execute.cpp` |
| `Toolchain` | Config, Create, Find, Info | `toolchain/**`, `toolchains/**`, `plugins/buildcc_find.cpp`, `env/host_os_util.h` |
| `Plugin` | Model | `plugins/clang_compile_commands.cpp` |
| `Exe` | Model (with a C++ reader for the generated header as specification in Header) | `/repo/buildexe/**`: Model after the command line is parsed, Program from the command line on; the library from `bootstrap` is a parameter in Model and the real one in Script |
| `Race` | Model | which memory the tasks of `tasks.cpp`, `custom_generator.cpp` and `args/src/tasks.cpp` read and write under which mutex; `env/task_state.cpp` |
| `Boot` | Model | `/repo/bootstrap/**` on Linux: what the build of the library gives its targets and registers |
| `Disk` | Model | `create_directories`, `save_file`, `load_file`, `exists`, `remove_all` on a tree of directories, and what the library itself creates |
| `Cli` | Model | `args/args.cpp`, `args.h`: declared toolchains and targets and what `Parse` puts into them |

## Modelling conventions

* A C++ `std::string` is a `List UInt8`.
* A function that may abort (`assert_fatal`, exception) returns `Option` or an
  explicit outcome type; undefined or unmodelled behaviour is its own outcome.
* Parallelism, the environment, command exit codes, crashes and failures of
  other targets are *events*.  A run is `run : Sys → List Event → Sys` with a
  total computable `step`; events that are not enabled change nothing.  A
  theorem about every event list is a theorem about every schedule, every
  failure pattern, every crash point and every history.
* The content of an input file is identified by its path and timestamp (the
  program only looks at timestamps).  Built files are represented by their
  provenance: the command line and the versions of the declared files the
  command read.  Equality of provenance implies equality of the produced file
  for every deterministic tool that reads only what is declared.

## Properties: how each is stated and proved

"false" means: the unrestricted statement is refuted in Lean by a concrete
history or input (theorem ending in `_false`, or named after the collision), and
the proved theorem (`_partial`) excludes exactly the named case.

| id | statement and proof |
|----|---------------------|
| C01 C02 C03 | invariant over all event lists relating stored state, artifacts and file stamps (`Sound`, `*Steps`, `Inv`).  Theorem: when a run ended with SUCCESS and nothing was edited since its start, each artifact equals the one a clean build makes.  False when precompiled headers are switched off or change language, when a header is edited between two hash computations, when a crash is followed by going back to old flags or to an old file with its old time stamp, when two sources share an object path, when a source is listed twice, and for custom templates that use link placeholders in compile commands |
| C12 | the same invariant over histories with kills.  False for a crash followed by reverting the configuration, or a source with its time stamp |
| C04 C05 C06 C08 C13 C14 | exact characterisation of the compiled sources and of the link decision by what was stored and the current stamps (`Select`, `Exact*`), over every schedule |
| C07 | runs with the same failing commands end in equivalent states: commutation of the micro steps (`Commute`, `Order`, `Det`) |
| C09 C10 C11 C58 | invariants on the command log and the task state (`Report`) |
| C15 C16 | `load (store s) = s` at byte level, through the JSON printer and parser |
| C17 | every proper prefix of a stored text is rejected |
| C18 | a text is loaded iff it is a document of the JSON grammar (RFC 8259, `Json/Grammar.lean`, a specification without reference to the parser) whose value has every required field with the right type; the loaded state is then exactly these fields; otherwise the state is unchanged |
| C19 | storing reports false iff the file cannot be opened, and then the run is a FAILURE |
| C20–C23 | algebra of normalisation; injectivity of object paths.  C21 is false for sources outside of the root and for names with underscores |
| C24 C25 C26 C27 C55 | substitution as a homomorphism over pattern segments; exact text of each shipped command.  C26 is false: defaults win |
| C28 C30 C31 C32 | exact set of callbacks of a generator run, over every schedule |
| C29 | invariant as C01.  False with edits during the callbacks, and for a crash followed by a revert of the configuration or of an input with its time stamp |
| C33 | false: a removed blob handler is not noticed; an added one can fail for ever |
| C34 C35 C36 | file generators (commands in order, re-run iff the commands changed), template generators (substitution), msgpack round trip and injectivity, and the MessagePack format as a specification that loading accepts exactly (`MsgpackGrammar`) |
| C37 | graph invariant by induction over the registration calls.  False for `Dep(a, a)`; with it, the exact outcome of `Dep` and which cycles there are (`CycleProps`) |
| C38 C39 | several builders with a scheduler that starts a builder when its predecessors are done (`World`, `Schedule`).  That everything runs is false for a cycle; exactly the builders that do not depend on a cycle run (`CycleProps`) |
| C40 | several targets, dependent ones linking earlier outputs (`WorldInv`, `OneScript`).  False without `Reg::Dep` |
| C41 | conditional registration calls nothing when a toolchain is disabled |
| C42 C43 | objects with identities in a store, every sequence of calls.  C43 is false for an identifier that is added twice; which objects are deleted is stated exactly |
| C44 C45 | field-wise: the selected fields are replaced or extended, others untouched.  C45 is false for repeated options |
| C46 C47 C65 | directory listings as data; exact characterisation of the found directories and files.  C46 is false (comparison by stem); Verify a second time is fatal |
| C48 C67 | every sequence of API calls: what is added, in which order, what is refused.  C48 is false for sources copied from a target with another configuration |
| C49 C66 | creation of toolchains by id.  C49 is false: the configuration is ignored |
| C50 C70 C71 | creation of targets: initial flags; generic targets; the name of the precompiled header that objects include is the one that is compiled |
| C51 C52 | splitting and trimming.  C52 is partial: undefined behaviour for some bytes |
| C53 C69 | the text of compile_commands.json is a document of the JSON grammar that denotes the compile commands.  C53 is false with quotes and backslashes (C53_exact: for no such string does the file hold the database, by the places of the literals in a JSON text, `Json/Lexer.lean`), C69 when nothing was rebuilt |
| C54 | build directories and identifiers are distinct for plain names.  Exact: `C54_id_exact`, `C54_dir_exact`.  False for names with separators |
| C56 C57 C59 | false of the code: deleted outputs, changed toolchains and repeated sources; positive parts proved |
| C60 C64 | a measure that every enabled event lowers, and an enabled event while the run is not over |
| C61 | the result of successful generator runs is the same for all schedules.  With failing callbacks the outcome and the arguments of the callbacks are the same, but not which of them run |
| C62 | false: pattern values are not stored.  A change that shows in a path is noticed |
| C63 | no callback starts after a failure |
| C68 C72 C73 | every sequence of calls on a generator: ids, paths, what Build creates.  C73 is false for a root with `..` |
| C74 | every sequence of Args, Project and Reg calls, by induction from the end.  False for `--clean`, which outlives Args::Deinit |
| C75 C76 | the tests of Run as a schedule of start and end events; counting invariant.  Output of failing tests is dropped; whether a failing test is noticed depends on taskflow |
| C77 | iff-characterisation of Verify for created toolchains, with the host's answers as data.  False: the version has a newline, the compiler is not quoted |
| C78 | the lists of the target as concatenations, from the theorems about the API (C67) and the target classes (C70); iff for refusal |
| C79 | iff-like case split over `main`.  False: the status of the script is ignored |
| C80 | reading the header with a small C++ reader gives back exactly the libraries.  False for paths with a space and names that are not identifiers: `C80_exact` says for which directories the header is right |
| C81 | from C04; false in script mode, from C06: the header is rewritten in every run |
| C82 | the words of each command of a made target are computed from the class and the family alone (`ShippedProps`: `includeOption`, `Tool`, `linkWords`), by composing C48-C51 with the creation of targets |
| C83 | tasks as sequences of reads, writes, locks and unlocks; any interleaving; lock sets by induction on code, ownership and order by induction on executions; refuted for the task state by an execution |
| C84 | the rules on names and directories give the disjointness of outputs and the declared order that C40 for one script needs (`ProjectLemmas`), then C40 and C37 |
| C85 | the API calls of the script are run on a listing of the checkout (`Boot/Model`); what they leave is computed (`Inputs`) and meets the rules of C84 (`Paths`, `Props`); two header directories are missed |
| C86 | `BuildEnvSetup` in script mode with the package of C85 (`Exe/Script`); the two libraries and the program form a sound script with two build directories (`ScriptProps`), so C40 for one script applies |
| C87 | `host_toolchain_verify` (`Exe/Host`): the target from the calls, C04/C05 for what is executed, and the words of the command that runs the program |
| C88 | scripts of targets and generators (`Reg/MixedSpec`): the rules give a sound script (`MixedProps`), so C40 for one script applies; the blob of a file generator gives back its commands (C36) |
| C89 | declarations and a command line give the variables (`Cli/Model`); induction over the declarations, each of which touches its own variable only |
| C90 | `main` of `buildexe` composed of the models of its parts (`Exe/Program`); each part is characterised by an equivalence (C77, C78, C89), and these are put together |
| C91 | directories and files as a tree (`Disk/Model`), lookup component by component; creating directories makes the lookup succeed, and normalising a path does not change where it leads (`Disk/Lemmas`, `PathLemmas`).  False for target names with a separator and for generator outputs in further directories; names with a `/` in `Disk/Slash` |
| C92 | the writes of `CompilePch` on that tree.  False when the build directory has a space in its path: the source is saved under the quoted path; exact in `C92_exact` |
| C93 | the worlds of C40 in which processes start and are killed; invariant: files, state files and artifacts are those after the first build and every running builder is a run of the single builder in which nothing is needed (`RebuildInv`, `RebuildProps`) |
| C94 | every builder of a process that is left alone is a run of the single builder (`Reg/Rebuild`), so the decisions of C04 and C30 apply; a file that differs was written by a builder that was executed, and declared dependencies lead from it |
| C95 | hash containers are lists in iteration order; two sequences of calls that differ by permutations are compared call by call, and the next run by C28; refutations by two orders of two elements |
| C96 | rounds of the search for cycles; upper bound by weights that double along a topological order, linear bound by an invariant of the visited tasks, lower bound by induction on layers of two builders |
| C97 | contents beside the stamps (`Target/Bytes`), tools are arbitrary functions; simulation: every built file holds the value of its description, so C01 to C03 carry over.  False for an edit that keeps its stamp |
| C98 | contents of inputs and outputs beside the stamps (`Generator/Bytes`), callbacks are arbitrary functions; simulation: every output holds the value of the call that wrote it, so C29 carries over.  False for outputs changed by others |
| C99 | one store of contents for all builders (`Reg/Bytes`); invariants: a builder whose last run counts left the value of what it read, and nobody else writes that; a build from scratch in any topological order is computed by a fold and shown equal by induction along that order.  False for products changed by hand |
| C100 | a family of scripts instead of one (`Reg/Scripts`); every configuration a builder ever had is one of the family, so the conditions of C40 hold at every start; for scripts made of calls the family is that of the versions (`PlainVersions`).  False after a killed run |
| C101 | the contents of C99 over the family of scripts of C100 (`Reg/BytesVersions`): what a builder has made is what is on the disk as long as nobody else ever writes it; then the induction over the order of the present version.  False for a file with different makers in different versions |
| C102 | any number of processes that share the files (`Target/Many`); invariant: seen from each running process, with the state file it has read, the single-process invariant holds, because whatever another process writes is what a build from scratch writes; the same for the state file as it is now.  False for edits during builds, for two configurations and for failed commands that destroy outputs |
| C103 | any number of processes that share inputs, outputs and state file (`Generator/Many`); invariant: what the state file, or the state a running process has loaded, records as unchanged is up to date or its callback runs in some process; every such callback ends well and leaves the outputs up to date.  False for edits during runs, for two configurations, and for callbacks that fail or are killed |
| C104 | the part of the POSIX grammar that splits a command into words, with quotes and backslashes (`Command/Shell`), applied to the texts of C82; a text that the grammar accepts is closed by the next space, so the words of a command are the words of its parts (`Target/ArgvProps`).  False for spaces in sources, include directories and libraries |
| C105 | as C104, for the commands of C76, C72 and C79: a pattern of words stands for the words of its values (`Exe/ArgvProps`).  False for directories of generators without quotes and for configuration files with a space |
| C106 | scripts as data (`Sample/Model`): the calls on targets, dependencies and tests; rules for the text that can be decided (`Sample/Spec`), from which the rules of C84 follow in every place, and that `Reg` accepts the calls (`Sample/Registered`).  The scripts of `example/hybrid` as data (`Sample/Hybrid`) |
| C107 | an invariant of the calls: the headers of the include directories so far are in the list of headers (`Sample/Headers`).  False of the examples `generic`, `StaticLib`, `DynamicLib` and `dep_chaining` (`Sample/HybridProps`).  Exactly what one call tracks, and that headers below the directory are left out (`Sample/Below`) |
| C108 | the text with generators (`Sample/MixedModel`) is turned into one without (`Sample/MixedText`); its graph and its files meet the rules of C88 (`C108_plain`, `C108_accepted`), and C88 gives the rest.  `dep_chaining` is an instance (`Sample/MixedExamples`) |
| C109 | one part of the script for each toolchain (`Sample/MultiModel`), on or off; each part that is on is a text of C108, and the parts meet in the generators only (`Sample/MultiCalls`, `Sample/MultiProps`).  All scripts of `example/hybrid` with any list of toolchains are instances (`Sample/MultiExamples`) |
| C110 | each run builds a choice of the targets (`Reg/Choices`): a builder has one configuration, so that no run of it is ever followed by another one (`KComp`), and the choices are versions in the sense of C100.  Scripts with toolchains that are turned on and off are instances (`Sample/MultiChoices`) |
| C111 | contents of the files after runs with choices of toolchains (`Reg/BytesChoices`, `Sample/MultiBytes`): by C101 the files of a run are those of a build from scratch of the builders of that run, and a builder that is off can be left out of a build from scratch of all of them, as nothing that is on depends on it |
| C112 | scripts whose text is edited between runs (`Sample/Edited`): the editions of a script are versions in the sense of C100 and C101; that no two builders of any two editions write the same file, that a target keeps its identity and that its object files belong to one source follow from the rules for each text and from a few rules for pairs of texts. Partial: a builder killed in the middle must finish one run before it is configured otherwise |
| C113 | C93 and C94 for scripts with several toolchains given by their text (`Reg/Again`, `Sample/MultiAgain`): the dependencies of such a script are a plan in the sense of C93, in any state of the files; they stay within a toolchain and never end at a generator, and following them back ends at a file that was changed from outside |
| C114 | the result of `Reg::Run` (`Reg/Outcome*`, `Sample/MultiOutcome`): an invariant of a build that the state is FAILURE only if some builder has failed by itself, and that every file that existed or whose maker has finished exists; a builder without a failed command fails by itself only if one of its inputs does not exist. `C114_deleted_false`: a file that one builder made and another reads is deleted: every later build fails and nothing makes it again |
| C115 | two builds of one script compared (`Reg/Agree*`, `Reg/Dated`): by induction along the dependencies, a builder whose predecessors executed the same commands finds each of its inputs in the same version or new in both builds, and then it needs the same commands, as a stored state never holds a time that a file has not had (an invariant of all histories). `C115_failed_false`: in builds that fail the executed commands depend on the schedule |
| C116 | as C104, for the rules of the Microsoft C runtime (`Command/WinArgs`): a scanner that counts backslashes; a text without quotes is read as it stands, and a quoted text is closed by its quote exactly if no backslash precedes it (`Target/WinArgvProps`, `Exe/WinArgvProps`).  False for spaces in sources and include directories and for a quoted path with a backslash at its end |
| C117 | two histories of a world compared (`Reg/Unnamed*`): a simulation relation (the same except for files outside `P`, and what runs deals with files in `P` only) is kept by every event, and by a change of a file outside `P` in one of the two worlds.  `Sample/MultiUnnamed` lifts C110 to builds during which other files change |
| C118 | `WinPath/*`: each path function of the Microsoft library reduces to the POSIX one on the part behind the drive; the theorems of C20–C23 are carried over by that refinement (`object_same_drive`), and sources on another drive are dealt with on their own |
| C119 | decision logic over all sets of predefined macros (`Env/Host`, `Boot/Host`): exact conditions for each answer, and for the sources and flags of the bootstrap script; `C119_bootstrap_linux` shows that the model of C85 is the case of Linux |
| C120 | a machine with scopes, storage, references and registered tasks, in which the use of a dead object is the outcome `none` (`Life/Model`); lifetimes are specified by the text of the events, with matching begin and end of functions (`Life/Spec`); equivalence by induction on the script |
| C121 | paths that are the same file if case does not count: the functions of `Path/Model` commute with changing all letters to small ones, except relative paths, so the theorems of C54 apply to the small names; objects from the exact form of C21 (`Path/Case`); on Windows by the part of the path behind the drive (`WinPath/Targets`) |
| C122 | the directories and state files of generators as in `Path/Model`: the names behind the build directory are the top of the stack of the normal form, so equal normal forms have equal names; with small letters as in C121 (`Path/Generators`); on Windows as in C121 (`WinPath/Generators`) |
| C123 | the paths of all files of a target as in `Path/Model`; each is the build directory and names below it, so by the argument of C122 they are the same only with the same names; the names are compared from their ends (`Target/Own`) |


## What is wrong in the code (refuted in Lean unless marked *)

* Removing the last precompiled header, or switching it between C and C++, is
  not noticed (C01, C03).
* A header edited after the precompiled header was hashed and before the objects
  were hashed is taken for built (C03); the same for generator inputs (C29).
* A run that changes artifacts and is killed (or cannot store), followed by going
  back to the old flags, leaves stale artifacts that are accepted (C01, C12, C29).
  The same happens when a source is restored together with its old time stamp.
* A source that is added twice is compiled twice, and counts as compiled when one of
  the two commands fails.  When the repetition is removed a broken object left by the
  failed command is linked (C01, `C01_repeated_source_false`).
* Different sources can have one object file (C21); outputs with extension
  `.bin`, and generators named like a target directory, overwrite state files (C54).
* An edit that keeps the time stamp (two edits within one tick, restored time stamps) is not
  noticed; built files keep the old content (C97, C98).
* A generator looks at its inputs only: outputs that were changed or deleted by hand stay (C98).
  A library that was changed by hand is linked as it is by the next successful build (C99).
* When an edit of the build script is undone after the build of it was killed, the next build succeeds
  and keeps object files compiled with the edited flags (C12, C100).
* A file that one generator makes in one version of the script and another generator in the next
  version is not made again when the edit is taken back: each generator looks only at its own inputs
  and its own record (C101).
* Nothing locks a build directory.  A source that is edited while one process builds, a second
  process, and a compile command of the first that ends late: an object of the old source that all
  later builds take for built.  The same with two configurations, and when a failed command of one
  process removes what the other has made (C102).  For generators also when a process is killed during
  a callback after another one has stored the state (C103).
* Deleted outputs, another compiler or other templates are not noticed (C56, C57).
* A repeated source is compiled in every run (C59).
* Default arguments of a command win over call arguments (C26).
* Blob handlers that are removed or added (C33); pattern values of templates (C62).
* `Reg::Dep(a, a)` is accepted; the next call of Dep does not end and Run
  reports success without running the target (C37, C38).
* The search for cycles does not remember visited tasks: in a script of n builders with two
  dependencies each one call of Dep can take more than 2^(n/2-2) steps (C96).
* Storage::Add with a used identifier returns another object than Ref and leaks
  (C42, C43).
* Copy and Insert by move with a repeated option lose data (C45).
* Find compares stems: names with a dot are never found and `gcc.txt` is taken
  for gcc (C46); a second Verify is fatal (C47).
* The configuration passed to specialised toolchains is discarded (C49); generic
  targets are fatal for Clang and custom toolchains even with a configuration (C70).
* compile_commands.json is not escaped (C53) and is not written when no target
  was rebuilt (C69).
* An empty extension for precompiled headers makes the command write over its
  input, and one without a dot or with two dots makes objects include a header
  that is not the compiled one (C71_exact).
* Templates get an empty id when the root contains `..` (C73).
* Inputs and outputs of an id are taken as sets but compared as lists, so another iteration
  order runs the callback again; the iteration order of `AddPatterns` decides whether a pattern
  that uses another one of the same call ends the program (C95).
* `--clean` outlives Args::Deinit (C74).
* The output of a failing test is never shown; output in several pieces is printed
  with spaces in between (C76).
* The reported compiler version ends with a newline, and the query does not quote
  the compiler (C77).
* `host_toolchain_verify` runs the program it built without quotes: in a directory with
  a space, every toolchain is refused, or another program is run (C87).
* `buildexe` ignores the result of the script it runs (C79); its header with library
  directories is not C++ when a path has a space or a name is not an identifier
  (C80), and it is rewritten in every run, so that scripts are always compiled
  again (C81).
* `isspace` is called with negative values (C52).
* The task state is read without a lock while a failing task writes it: a data race (C83).
  Tests that redirect to the same vector race on it.
* The bootstrap script lists directories of headers by hand and misses two
  (`args/register`, `target/custom_generator`): editing their headers does not
  rebuild the library (C85).
* `AddToolchain` does not use the configuration of `initial`; `ConstructToolchain`
  always passes executables, so that a toolchain for which none are given has empty
  ones and not those of its kind (C89).
* `buildexe` takes `--id clang`, `custom` and `undefined`, but can never succeed with them;
  all five executables have to be given, although one kind of toolchain has only one
  usual name for each (C90).
* A target whose name has a `/` can never be built: its program and its state file are in
  a directory that nothing creates.  Directories of generator outputs are not created (C91).
* The source for the precompiled header is saved under its path as formatted for
  display: in a build directory with a space, every target with a precompiled header
  fails (C92).
* Sources, include directories, library directories and libraries are inserted in commands
  without quotes: no project in a directory with a space can be built (C104).
* `buildexe` passes configuration files to the script without quotes; one with a space in its name is
  never read (C105).
* The examples `generic`, `StaticLib` and `DynamicLib` do not track a header that their programs include,
  and those in `dep_chaining` not the script that generates the sources: after a change of it the build
  leaves the old program (C107).
* A target or the data of a blob handler that is a local object of a callback is registered and read by the run
  after it is destroyed, without a message (C120_callback_false, C120_blob_false).
* Where the case of file names does not count, targets whose names differ only in case are both
  accepted and share their state file and output (C121_names_false).
* A generator with the name of a toolchain works in the directory that has the directories of all targets of the toolchain; nothing refuses it (C122_names_false).
* An executable for Linux that is called like one of its objects, or `buildcc_pch.h`, is written over that file (C123_name_false, exactly in C123_executable).
* `AddIncludeDir(dir, true)` tracks the headers in `dir` itself and none in the directories below it, which
  the compiler searches as well (C107_below_false).
* On Windows, sources on another drive than the root directory of the target, or on the same drive written with
  the other case, share one object as soon as they have the same file name; a directory with a space that is
  written with a final separator breaks the command that it is in (C118).
* `get_host_os` returns `Unix` on Linux, as its tests overwrite each other; the bootstrap script compiles
  `process_unix.cpp` on Windows with Clang, and no implementation of processes with GCC on macOS (C119).
* Dynamic libraries ignore libraries (C27).
* (*)
  `target.Insert(target)` is undefined behaviour; errors while flushing a
  state file are not reported; the name in a stored generator state is
  never set; `fs::exists` without error code can throw in Find; `buildexe` passes
  configuration files without quotes and inserts the include directories of the
  library twice; `--clean` removes whatever directory is the build directory.

## Trusted base

* The Lean 4.33.0 kernel.  No `sorry`, no own axioms, no `native_decide`, no
  `bv_decide`.  Only Lean's library is imported, nothing of Mathlib.
* The axioms `propext`, `Classical.choice` and `Quot.sound`; which theorem uses
  which is listed below.
* The reading of the C++ source recorded in the comments of the model files.
* The behaviour of third-party code that is not in /repo: fmt (named arguments
  without format specifications), nlohmann/json (ordered_json, `dump(4)`, `parse`
  without exceptions), msgpack encoding of nlohmann/json, taskflow (a task starts
  when its predecessors are done and all independent tasks may interleave),
  tiny-process-library, `/bin/sh` (`Command/Shell`), libstdc++ `filesystem` on POSIX, CLI11 (as described in `Cli/Model`).
  Three of these were compared with an implementation (a test of the trusted base, not part of any
  proof): the path functions of `Path/Model` with libstdc++ 13 on 117562 pairs of paths, without a
  difference (paths of two or more slashes and nothing else, which libstdc++ does not normalise,
  were left out), and `Json.parse` with the parser of Python on 30151 texts, without a difference
  except for the sign of `-0`, and `Shell.split` with dash on 30000 texts (10289 of them have words
  according to `split`), without a difference.
* The compiler and the other commands are deterministic and read only what is
  declared to the build system.

## Conformance with the unit tests of /repo

The modules under `Conform` transcribe the unit tests of /repo and run them on the model: `Target` the
sessions of the tests of a target (sources, flags, include directories, libraries, dependencies,
precompiled headers, failing commands), `Generator` those of the three generators, `Rest` those of
commands, `split`, storage, paths, state files, the registry, tests with output, arguments, toolchains,
`BuildccFind` and the functions that fill a target.  Each is an `example` that compares the number of
commands, the task state, what is built or what is refused with what the test expects.  They are tests
of the model, not proofs, and no claim refers to them; all of them held at the first attempt.
Of the tests in those files, `Construct_Basic` (the automatic argument `{}`) is outside of the modelled
fragment of fmt, and values cast out of the range of an enumeration are not modelled.

## What is not modelled

* On Windows: paths that begin with two separators (`\\server\share`). That the case of file names does not count there is the subject of C121. C118 models separators and drives, C116 the splitting of commands, with `/` in paths.
* Logging, `assert_fatal` messages, `third_party`; of `bootstrap`, `build_flatbuffers.cpp`, which nothing calls.
* Memory: toolchains that are moved while a target refers to them, and what captures of lambdas in scripts refer to.  C43 and C120 are about lifetimes.
* Which order a hash container is iterated in: where it matters it is an argument (C72, C95).
* Floating-point values in state files: a number with a fraction or exponent is
  only "not an integer"; range errors are modelled.
* Symbolic links, permissions, full disks (`Disk`); the other models take it that the
  directory of a file exists, which is the subject of C91.
* Time: file stamps are numbers, and an edit may give a file any stamp, also an
  old one (the soundness theorems exclude that, the theorems named `_old_stamp_false`
  show why).  That two different contents may have one stamp (two edits within one
  clock tick) is the subject of C97 and C98, which show that it is not noticed; files
  written by commands get new stamps.
* What a data race does: in the target and generator models micro steps are atomic,
  one for each access to shared data.  `Race` shows that accesses exclude each other
  except those of the task state, where C++ leaves the behaviour undefined.  Data of
  callbacks and blob handlers of scripts is not followed.

## Axioms of each theorem in MANIFEST.json

As printed by `#print axioms` (prefix `Verif.` left out).

* No axioms: `Command.construct_default_shadows_argument`, `Target.C45_copy_repeated_false`, `Target.C45_insert_repeated_false`, `Toolchain.C49_config_false`, `Toolchain.C49_base`, `Path.target_dirs_collision`, `Path.target_id_collision`, `Path.target_output_is_state`, `Path.generator_target_collision`

* `propext`: `Sample.C107_samples`, `WinArgv.C116_backslash_false`, `WinPath.C118_again_false`, `WinPath.C118_join`, `WinPath.C118_directory_false`, `Boot.C119_os`, `Boot.C119_linux_false`, `Boot.C119_host`, `Boot.C119_bootstrap_linux`, `Boot.C119_process_exact`, `Boot.C119_process_partial`, `Boot.C119_process_false`, `Boot.C119_flags`, `Boot.C119_link`, `Life.C120_samples`, `WinPath.C121_windows_false`, `Target.C123_name_false`, `Path.object_path_collision_outside_root`, `Path.object_path_collision_underscores`, `Path.object_path_collision_inside_root`, `Path.object_path_collision_dotdot_root`, `Path.path_display_exact`, `Path.path_display_quote_broken`, `Command.default_first_wins`, `Command.default_added`, `Generator.C35_failure_untouched`, `Reg.C37_unregistered`, `Reg.C37_self_false`, `Reg.C40_written`, `Reg.C41_disabled_calls`, `Reg.C41_test`, `Reg.C41_build`, `Target.C44_copy`, `Target.C44_insert`, `Target.C45_copy_partial`, `Target.C45_insert_exact`, `Toolchain.C46_plain_names`, `Toolchain.C46_extension_false`, `Target.C48_copied_false`, `Toolchain.C49_made_partial`, `Toolchain.C49_exact`, `Target.C50_new`, `Path.target_id_injective`, `Plugin.C69_current_partial`, `Plugin.C69_false`, `Target.C70_custom`, `Generator.C73_root_false`, `Reg.C74_init`, `Reg.C74_project`, `Reg.C74_bad_line`, `Reg.C75_failure_false`, `Reg.C76_pieces_false`, `Exe.C80_name_false`, `Exe.C87_runs_partial`, `Exe.C90_ends`

* `Quot.sound`, `propext`: `Target.C01_pch_dropped_false`, `Target.C01_unstored_and_revert_false`, `Target.C01_object_collision_false`, `Target.C01_repeated_source_false`, `Target.C01_custom_template_false`, `Target.C03_pch_language_false`, `Target.C03_header_edit_during_build_false`, `Target.C09_no_later_command`, `Target.C09_fail_stop`, `Target.C10_failure_reported`, `Target.C102_independent`, `Target.C102_edit_false`, `Target.C102_flags_false`, `Target.C102_failure_false`, `Generator.C103_independent`, `Generator.C103_edit_false`, `Generator.C103_configurations_false`, `Generator.C103_failure_false`, `Generator.C103_killed_false`, `Target.C104_header`, `Argv.C105_test`, `Argv.C105_test_plain`, `Argv.C105_generator`, `Argv.C105_generator_quoted`, `Argv.C105_generator_false`, `Argv.C105_script_exact`, `Argv.C105_script_partial`, `Argv.C105_script_false`, `Sample.C106_samples`, `Sample.C107_generated_false`, `Sample.C107_below`, `Sample.C107_below_false`, `Sample.C109_mixed`, `Sample.C109_samples`, `Target.C11_phase_order`, `Target.C11_state_written_last`, `Sample.C110_run`, `Sample.C110_samples`, `WinArgv.C116_test`, `WinArgv.C116_generator`, `WinArgv.C116_script`, `WinPath.C118_spelling`, `WinPath.C118_preferred`, `WinPath.C118_again`, `WinPath.C118_places`, `WinPath.C118_other_drive`, `WinPath.C118_other_drive_false`, `Target.C12_crash_points`, `Generator.C12_crash_points`, `Target.C12_crash_and_revert_false`, `Target.C12_old_stamp_false`, `Life.C120_exact`, `Life.C120_exit`, `Life.C120_callback_false`, `Life.C120_blob_false`, `Path.C122_target_state`, `Path.C122_names_false`, `Target.C19_store_failure_reported`, `Path.normal_idempotent`, `Path.normal_no_dot`, `Path.normal_no_name_dotdot`, `Path.normal_no_empty`, `Path.normal_skip_dot`, `Path.normal_skip_slash`, `Path.normal_skip_updown`, `Path.path_display_one_word`, `Command.construct_meaning`, `Command.construct_value_iff`, `Command.construct_no_rescan`, `Command.construct_text`, `Command.construct_perm`, `Command.construct_missing_fatal`, `Command.construct_lone_close_fatal`, `Command.construct_lone_open_fatal`, `Command.construct_value_iff`, `Command.construct_argument_used_partial`, `Command.construct_default_wins`, `Command.default_frame`, `Command.C26_exact`, `Target.gcc_compile_command`, `Target.msvc_compile_command`, `Target.gcc_pch_command`, `Target.msvc_pch_command`, `Target.gcc_executable_link_command`, `Target.gcc_static_link_command`, `Target.gcc_dynamic_link_command`, `Target.mingw_dynamic_link_command`, `Target.msvc_executable_link_command`, `Target.msvc_static_link_command`, `Target.msvc_dynamic_link_command`, `Target.compile_source_space_split`, `Target.gcc_dynamic_ignores_libs`, `Target.C27_placeholders`, `Generator.C29_edit_during_run_false`, `Generator.C29_crash_and_revert_false`, `Generator.C29_old_stamp_false`, `Generator.C35_substituted`, `Generator.C35_only_substituted`, `Generator.C35_unknown_placeholder`, `Reg.C37_self_hangs`, `Reg.C38_order`, `Reg.C38_once`, `Reg.C38_self_false`, `Reg.C39_dependents`, `Reg.C39_no_return`, `Reg.C39_return`, `Reg.C40_undeclared_false`, `Env.C42_ref`, `Env.C42_unique`, `Env.C42_fatal`, `Env.C42_contains_valid`, `Env.C42_add_partial`, `Env.C43_at_most_once`, `Env.C43_reachable_alive`, `Env.C43_all_deleted_partial`, `Env.C43_leak_false`, `Target.C45_insert_partial`, `Target.C45_insert_iff`, `Target.C48_compiled`, `Target.C48_refused`, `Target.C48_unclassified`, `Target.C50_flags`, `Env.C51_split`, `Env.C51_split_trailing`, `Env.C51_split_every`, `Toolchain.C51_search`, `Plugin.C53_commands`, `Path.target_dirs_disjoint`, `Path.target_files_distinct`, `Path.C54_id_exact`, `Path.C54_dir_exact`, `Target.pch_header_text`, `Target.pch_header_injective`, `Target.C56_deleted_object_false`, `Target.C57_toolchain_change_false`, `Target.C58_failure_is_final`, `Reg.C58_seen`, `Generator.C61_failure_false`, `Generator.C63_fail_stop`, `Generator.C64_initial`, `Toolchain.C65_search`, `Toolchain.C66_fatal`, `Toolchain.C66_new`, `Target.C67_rejected`, `Target.C67_inputs`, `Target.C67_copied`, `Generator.C68_ids`, `Generator.C68_duplicate`, `Generator.C68_paths`, `Generator.C68_pattern`, `Generator.C68_directories`, `Plugin.C69_rebuilt`, `Generator.C72_built`, `Generator.C72_unique`, `Generator.C73_built`, `Generator.C73_duplicate`, `Generator.C73_exact`, `Reg.C74_initialized`, `Reg.C74_not_initialized`, `Reg.C74_parsed`, `Reg.C74_exit`, `Reg.C74_clean_false`, `Reg.C75_run_order`, `Reg.C75_failure_partial`, `Reg.C76_command`, `Reg.C76_only_command`, `Reg.C76_output_partial`, `Reg.C76_failed_output_false`, `Reg.C76_exact`, `Toolchain.C77_space_false`, `Exe.C78_parent`, `Exe.C79_run_partial`, `Exe.C79_status_false`, `Exe.C80_header_partial`, `Exe.C80_libs_partial`, `Exe.C80_space_false`, `Exe.C80_exact`, `Race.C83_shared_vector_false`, `Exe.C86_ran`, `Exe.C87_space_false`, `Exe.C87_exact`, `Cli.C89_toolchain_partial`, `Cli.C89_target`, `Cli.C89_fatal`, `Cli.C89_constructed`, `Cli.C89_config_false`, `Cli.C89_defaults_false`, `Exe.C90_failed`, `Exe.C90_cleaned`, `Disk.C91_made`, `Disk.C91_clean`, `Disk.C91_template`, `Disk.C91_slash_false`, `Disk.C91_slash_exact`, `Disk.C91_output_false`, `Disk.C91_output_exact`, `Generator.C95_filled_partial`, `Generator.C95_file`, `Generator.C95_rerun_false`, `Generator.C95_patterns_false`, `Target.C97_same_stamp_false`, `Generator.C98_tampered_false`, `Generator.C98_same_stamp_false`, `Reg.C99_by_hand_false`

* `Classical.choice`, `Quot.sound`, `propext`: `Target.C01_no_stale_object_partial`, `Target.C01_C02_C03_general_partial`, `Target.C02_no_stale_binary_partial`, `Target.C01_C02_C03_general_partial`, `Target.C03_no_stale_pch_partial`, `Target.C01_C02_C03_general_partial`, `Target.C04_null_rebuild`, `Target.C04_C05_only_needed`, `Target.C04_C05_exactly_needed`, `Target.C05_one_source`, `Target.C04_C05_only_needed`, `Target.C04_C05_exactly_needed`, `Target.C06_shared_change`, `Target.C07_schedule_independent`, `Target.C08_failed_retried`, `Target.C10_success_iff`, `Reg.C100_versions_partial`, `Reg.C100_project_partial`, `Reg.C100_commands_partial`, `Reg.C100_killed_false`, `Reg.C101_contents_partial`, `Reg.C101_project_partial`, `Reg.C101_reproducible_partial`, `Reg.C101_two_makers_false`, `Target.C102_concurrent_partial`, `Generator.C103_concurrent_partial`, `Target.C104_compile_exact`, `Target.C104_compile_partial`, `Target.C104_pch_partial`, `Target.C104_link_exact`, `Target.C104_link_partial`, `Target.C104_source_false`, `Target.C104_include_false`, `Target.C104_library_false`, `Sample.C106_accepted`, `Sample.C106_plain`, `Sample.C106_built`, `Sample.C107_covered`, `Sample.C107_pch`, `Sample.C107_generic_false`, `Sample.C107_library_false`, `Sample.C108_accepted`, `Sample.C108_plain`, `Sample.C108_built`, `Sample.C108_chaining`, `Sample.C109_accepted`, `Sample.C109_plain`, `Sample.C109_built`, `Sample.C109_chaining`, `Reg.C110_choices`, `Sample.C110_built`, `Reg.C111_choices`, `Reg.C111_same`, `Sample.C111_contents`, `Sample.C111_reproducible`, `Sample.C112_built_partial`, `Sample.C112_contents_partial`, `Sample.C112_reproducible_partial`, `Sample.C113_again`, `Sample.C113_affected`, `Sample.C113_aside`, `Sample.C113_commands`, `Reg.C114_result`, `Reg.C114_succeeds`, `Reg.C114_ends`, `Reg.C114_deleted_false`, `Sample.C114_script`, `Sample.C114_first`, `Reg.C115_commands`, `Reg.C115_same`, `Reg.C115_files`, `Reg.C115_result`, `Reg.C115_failed_false`, `Sample.C115_script`, `WinArgv.C116_path`, `WinArgv.C116_compile`, `WinArgv.C116_compile_partial`, `WinArgv.C116_pch`, `WinArgv.C116_link`, `WinArgv.C116_generator_quoted`, `WinArgv.C116_source_false`, `Reg.C117_unnamed`, `Reg.C117_two`, `Sample.C117_built`, `WinPath.C118_drive`, `WinPath.C118_objects_exact`, `WinPath.C118_objects_partial`, `WinPath.C118_inside`, `WinPath.C118_argument`, `Target.C12_crash_safe_partial`, `Target.C12_unreadable_state_safe`, `Life.C120_rule`, `Life.C120_storage`, `Path.C121_targets`, `Path.C121_state`, `Path.C121_objects`, `Path.C121_sources_partial`, `Path.C121_names_false`, `WinPath.C121_windows`, `WinPath.C121_windows_state`, `Path.C122_generators`, `Path.C122_state`, `Path.C122_target`, `Path.C122_target_state_case`, `WinPath.C122_windows`, `WinPath.C122_windows_target`, `WinPath.C122_windows_state`, `Target.C123_exact`, `Target.C123_distinct`, `Target.C123_extension`, `Target.C123_executable`, `Target.C13_removed_source`, `Target.C14_link_inputs`, `Target.C14_no_state`, `Schema.target_state_round_trip`, `Schema.target_text_injective`, `Schema.generator_state_round_trip`, `Schema.target_truncated_rejected`, `Schema.generator_truncated_rejected`, `Schema.target_load_all_or_nothing`, `Schema.document_unique`, `Schema.generator_load_all_or_nothing`, `Schema.target_load_missing_key`, `Schema.target_store_outcome`, `Schema.generator_store_outcome`, `Path.object_path_injective_inside_root_partial`, `Path.object_path_injective_no_underscore_partial`, `Path.C21_exact`, `Path.object_path_inside_build`, `Target.C25_start`, `Target.gcc_compile_words`, `Generator.C28_only_needed`, `Generator.C28_exactly_needed`, `Generator.C29_general_partial`, `Generator.C29_one_configuration_partial`, `Generator.C30_null_run`, `Generator.C31_failed_retried`, `Generator.C32_removed_id`, `Generator.C33_data_changed_partial`, `Generator.C33_handler_removed_false`, `Generator.C33_handler_added_false`, `Generator.C33_exact`, `Generator.C34_in_order`, `Generator.C34_given_commands`, `Generator.C34_rerun_iff`, `Generator.C36_roundtrip`, `Generator.C36_changed_iff`, `Generator.C36_injective`, `Generator.C36_accepted`, `Generator.C36_verify`, `Reg.C37_valid`, `Reg.C37_acyclic_partial`, `Reg.C37_rejected_iff_partial`, `Reg.C37_dep_exact`, `Reg.C37_cycles`, `Reg.C38_all_executed_partial`, `Reg.C38_bounded`, `Reg.C38_progress`, `Reg.C38_executed_iff`, `Reg.C38_script`, `Reg.C40_one_script_partial`, `Reg.C40_linked_partial`, `Reg.C40_up_to_date_partial`, `Env.C42_add_in_use_false`, `Env.C43_exact`, `Target.C45_copy_exact`, `Target.C45_copy_iff`, `Toolchain.C46_find_partial`, `Toolchain.C46_dotted_false`, `Toolchain.C47_verify`, `Toolchain.C47_fatal`, `Toolchain.C47_again_false`, `Target.C48_accepted_partial`, `Target.C48_origin`, `Target.C48_own`, `Env.C52_trim_partial`, `Env.C52_trim_defined`, `Env.C52_trim_unique`, `Env.C52_trim_idem`, `Env.C52_undefined`, `Env.C52_exact`, `Plugin.C53_database_partial`, `Plugin.C53_exact`, `Plugin.C53_outcome`, `Plugin.C53_quote_false`, `Plugin.C53_backslash_false`, `Plugin.C53_space_false`, `Target.C56_recreated_without_state_partial`, `Target.C56_ignored_false`, `Target.C57_rebuilt_without_state_partial`, `Target.C57_ignored_false`, `Target.C59_fixpoint_partial`, `Target.C59_repeated_source_false`, `Target.C59_exact`, `Target.C60_bounded`, `Target.C60_progress`, `Target.C60_completes`, `Generator.C61_schedule_independent_partial`, `Generator.C61_result`, `Generator.C61_calls`, `Generator.C62_path_changed_partial`, `Generator.C62_pattern_change_false`, `Generator.C62_exact`, `Generator.C64_bounded`, `Generator.C64_progress`, `Generator.C64_completes`, `Target.C70_fatal`, `Target.C70_made`, `Target.C70_same`, `Target.C71_gcc`, `Target.C71_msvc`, `Target.C71_exact`, `Target.C71_extension_false`, `Generator.C73_distinct_partial`, `Generator.C73_builds_partial`, `Reg.C75_at_most_once`, `Reg.C75_all_run`, `Toolchain.C77_gcc_partial`, `Toolchain.C77_msvc`, `Toolchain.C77_custom`, `Toolchain.C77_newline_false`, `Exe.C78_target`, `Exe.C78_refused`, `Exe.C81_again_partial`, `Exe.C81_script_false`, `Target.C82_compile`, `Target.C82_link`, `Target.C82_pch`, `Race.C83_races_partial`, `Race.C83_no_failure_partial`, `Race.C83_no_deadlock`, `Race.C83_task_state_false`, `Reg.C84_project`, `Boot.C85_inputs`, `Boot.C85_includes`, `Boot.C85_plain`, `Boot.C85_built`, `Boot.C85_forgotten_false`, `Exe.C86_script`, `Exe.C87_target`, `Exe.C87_tried`, `Reg.C88_mixed`, `Reg.C88_commands`, `Exe.C90_program`, `Exe.C90_executables`, `Exe.C90_kinds`, `Disk.C91_directories_partial`, `Disk.C91_created`, `Disk.C91_state_partial`, `Disk.C91_generator_partial`, `Disk.C91_commands`, `Disk.C92_files_partial`, `Disk.C92_space_false`, `Disk.C92_exact`, `Reg.C93_null_rebuild`, `Reg.C94_only_affected`, `Reg.C94_cause`, `Reg.C94_commands`, `Reg.C94_ids`, `Reg.C94_root`, `Generator.C95_rerun`, `Reg.C96_bound`, `Reg.C96_linear_partial`, `Reg.C96_linear_false`, `Target.C97_contents_partial`, `Target.C97_unnoticed`, `Generator.C98_contents_partial`, `Reg.C99_contents_partial`, `Reg.C99_reproducible_partial`, `Reg.C99_project_partial`
