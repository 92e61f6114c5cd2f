{"id": "C01", "title": "A successful target run never leaves a stale object file", "statement": "When a run of a target (Target::Build followed by executing its taskflow) ends in task state SUCCESS and no file was edited during that run, the object file of every source added to the target is the product of the current compile command applied to the current versions of that source, of the declared headers, of the declared compile dependencies and of the current PCH; i.e. the same object a clean build would produce.", "quantifier": "every history of runs of the target with arbitrary configurations (flags, dirs, sources, headers, deps, PCHs), arbitrary file edits before and during runs, arbitrary command failures, failures of other targets, every completion order of the parallel compile tasks and every crash point including half-written state files", "why_tests_cant": "Staleness depends on the whole history of runs and on interleavings of edits, failures and crashes; a unit test can exercise only a few fixed histories.", "anchors": ["buildcc/lib/target/src/target/build.cpp Target::Build", "buildcc/lib/target/src/target/tasks.cpp CompileObject::Task, Target::EndTask", "buildcc/lib/target/src/target/friend/compile_object.cpp BuildObjectCompile, RecompileSources", "buildcc/schema/src/target_serialization.cpp UpdateStore"]}
{"id": "C02", "title": "A successful target run never leaves a stale output binary", "statement": "When a run ends in task state SUCCESS and no file was edited during it, the output file of the target is the product of the link command built from the current link flags, lib dirs, external libs and object list, applied to the current object files and to the current versions of the declared libs and link dependencies.", "quantifier": "every history of runs, edits, failures, schedules and crash points, as in C01", "why_tests_cant": "Whether the link step may be skipped depends on what every earlier run compiled, stored or lost.", "anchors": ["buildcc/lib/target/src/target/friend/link_target.cpp BuildLink", "buildcc/lib/target/src/target/tasks.cpp LinkTarget::Task", "buildcc/lib/target/src/target/tasks.cpp Target::EndTask"]}
{"id": "C03", "title": "A successful target run never leaves a stale precompiled header", "statement": "When a run of a target that has PCH headers ends in task state SUCCESS and no file was edited during it, the compiled PCH is the product of the current PCH compile command applied to the current versions of the PCH headers and of the declared headers.", "quantifier": "every history of runs, edits, failures, schedules and crash points, as in C01", "why_tests_cant": "The PCH is skipped on the strength of data recorded by earlier runs; an edit between two hash computations of one run is enough to break it and no unit test controls that timing.", "anchors": ["buildcc/lib/target/src/target/friend/compile_pch.cpp BuildCompile, PreCompile", "buildcc/lib/target/src/target/friend/compile_object.cpp PreObjectCompile", "buildcc/schema/src/target_serialization.cpp UpdatePchCompiled"]}
{"id": "C04", "title": "A null rebuild does nothing", "statement": "If a run of a target succeeded and the state was stored, and neither the configuration nor any tracked file changes, then the next run executes no command at all, leaves the state file and all artifacts untouched, ends in SUCCESS and IsBuilt() is false.", "quantifier": "every configuration without repeated sources, every history before the successful run, every schedule of both runs", "why_tests_cant": "Must hold for every configuration and for every order in which the parallel tasks of the earlier run recorded their results.", "anchors": ["buildcc/lib/target/src/target/friend/compile_object.cpp RecompileSources", "buildcc/lib/target/src/target/friend/link_target.cpp BuildLink", "buildcc/lib/target/src/target/friend/compile_pch.cpp BuildCompile", "buildcc/lib/target/src/target/tasks.cpp EndTask"]}
{"id": "C05", "title": "Editing one source recompiles exactly that source and relinks", "statement": "After a successful stored run, if exactly one source file gets a new timestamp and the configuration is unchanged, the next run executes exactly one compile command, the one of that source, and then the link command.", "quantifier": "every configuration without repeated sources, every choice of the edited source, every schedule", "why_tests_cant": "Minimality is a statement about all the other sources and all schedules.", "anchors": ["buildcc/lib/target/src/target/friend/compile_object.cpp RecompileSources", "buildcc/lib/target/src/target/tasks.cpp CompileObject::Task"]}
{"id": "C06", "title": "Any change of a shared compile input recompiles every source", "statement": "If the previous state was loaded and any of the preprocessor, common, PCH-object, assembler, C or C++ flags, the include directories, the header list or a header timestamp, or the compile dependencies or one of their timestamps differs from the stored one, then every source of the target is selected for compilation and the target is relinked.", "quantifier": "every stored state and every current configuration and file timestamps", "why_tests_cant": "There are unboundedly many pairs of stored and current inputs; the comparison must be exact for all of them.", "anchors": ["buildcc/lib/target/src/target/friend/compile_object.cpp BuildObjectCompile, CompileSources"]}
{"id": "C07", "title": "The outcome of a run does not depend on the completion order of parallel compile tasks", "statement": "Two complete runs from the same start with the same commands succeeding or failing end with the same task state and stored states that lead the next run to the same decisions (the same set of sources to compile, the same link decision), whatever the order in which the parallel compile tasks execute and record their results.", "quantifier": "every pair of schedules of the parallel compile tasks", "why_tests_cant": "Schedules cannot be enumerated by tests and the recorded source list does depend on the order.", "anchors": ["buildcc/lib/target/src/target/tasks.cpp CompileObject::Task", "buildcc/schema/src/target_serialization.cpp AddSource", "buildcc/schema/include/schema/path.h GetUnorderedPathInfos"]}
{"id": "C08", "title": "After failed compiles the next run compiles exactly the sources that failed", "statement": "If some compile commands of a run fail and the state is stored, then with unchanged configuration and files the next run compiles exactly the sources whose command failed (none of those that succeeded) and, if those succeed, links.", "quantifier": "every subset of failing sources and every schedule", "why_tests_cant": "The subset of failing sources ranges over all subsets and the schedule over all interleavings.", "anchors": ["buildcc/lib/target/src/target/tasks.cpp CompileObject::Task, EndTask", "buildcc/schema/src/target_serialization.cpp UpdateStore"]}
{"id": "C09", "title": "Fail-stop inside a target", "statement": "Once the task state is FAILURE no later phase of the target runs a command: no object compile after a failed PCH compile, no link after any failed compile.", "quantifier": "every run, schedule and failure pattern, including failures signalled by other targets", "why_tests_cant": "Depends on every interleaving of failures with phases.", "anchors": ["buildcc/lib/target/src/target/tasks.cpp CompilePch::Task, CompileObject::Task, LinkTarget::Task", "buildcc/lib/env/src/task_state.cpp"]}
{"id": "C10", "title": "A run reports FAILURE exactly when something failed", "statement": "At the end of a run the task state is SUCCESS if and only if it was SUCCESS at the start and no command failed, every tracked file needed was present, the state could be stored and no other target failed.", "quantifier": "every run, schedule and failure pattern", "why_tests_cant": "A lost failure in any interleaving would make a broken build look good.", "anchors": ["buildcc/lib/target/src/target/tasks.cpp", "buildcc/lib/env/src/task_state.cpp set_task_state", "buildcc/lib/args/src/tasks.cpp RunBuild"]}
{"id": "C11", "title": "Phase order within a target", "statement": "In every run the PCH command finishes before any compile command starts, every compile command finishes before the link command starts, and the state is written after the link command.", "quantifier": "every schedule", "why_tests_cant": "Ordering under all schedules cannot be established by sampling.", "anchors": ["buildcc/lib/target/src/target/tasks.cpp TaskDeps"]}
{"id": "C12", "title": "A crash never makes a later build accept stale artifacts", "statement": "If the process is killed at any point of a run, including in the middle of writing the state file, then a later successful run leaves no stale object, PCH or binary.", "quantifier": "every crash point, every number of crashes, every later configuration", "why_tests_cant": "Crash points and truncation points are unbounded and tests cannot kill the process at each one.", "anchors": ["buildcc/lib/target/src/target/tasks.cpp EndTask", "buildcc/schema/src/target_serialization.cpp Store, Load", "buildcc/lib/env/include/env/util.h save_file"]}
{"id": "C13", "title": "Removing a source relinks without it and recompiles nothing else", "statement": "After a successful stored run, if one source is removed from the target and nothing else changes, the next run executes only the link command and the removed source's object is not an input of it.", "quantifier": "every configuration without repeated sources and every removed source", "why_tests_cant": "Must hold for every source list.", "anchors": ["buildcc/lib/target/src/target/friend/compile_object.cpp RecompileSources, GetCompiledSources", "buildcc/lib/target/src/target/friend/link_target.cpp CacheLinkCommand"]}
{"id": "C14", "title": "Any change of a link input relinks", "statement": "If the stored link flags, lib dirs, external libs, libs or link dependencies (paths or timestamps) differ from the current ones, or the stored state says the target was not linked, or anything was recompiled, the run executes the link command or ends in FAILURE.", "quantifier": "every stored state, configuration, file state and schedule", "why_tests_cant": "Unboundedly many pairs of stored and current inputs.", "anchors": ["buildcc/lib/target/src/target/friend/link_target.cpp BuildLink"]}
{"id": "C15", "title": "Target state survives store and load unchanged", "statement": "Loading a state file that was stored by the library gives back exactly the stored target state: every list, order, path, hash, flag and boolean, for all strings that are valid UTF-8, including quotes, backslashes, control characters and non-ASCII text.", "quantifier": "every target state whose strings are valid UTF-8", "why_tests_cant": "Strings are unbounded and the escape and pretty-print paths interact; tests use a handful of literals.", "anchors": ["buildcc/schema/src/target_serialization.cpp Load, Store", "buildcc/schema/include/schema/target_schema.h to_json, from_json", "buildcc/schema/include/schema/path.h to_json, from_json"]}
{"id": "C16", "title": "Generator state survives store and load unchanged", "statement": "Loading a state file stored by a custom generator gives back the same ids with the same inputs, hashes, outputs and user blob bytes.", "quantifier": "every generator state with distinct ids whose strings are valid UTF-8, and every blob", "why_tests_cant": "As C15; the blob ranges over all byte vectors.", "anchors": ["buildcc/schema/src/custom_generator_serialization.cpp", "buildcc/schema/include/schema/custom_generator_schema.h"]}
{"id": "C17", "title": "A truncated state file is never accepted", "statement": "If only a proper prefix of the state reached the disk, loading it fails and the next run behaves as if no state existed.", "quantifier": "every stored state (target and generator) and every truncation point", "why_tests_cant": "There is one truncation point per byte of every possible state file.", "anchors": ["buildcc/schema/src/target_serialization.cpp Load", "buildcc/lib/env/include/env/util.h save_file, load_file"]}
{"id": "C18", "title": "Loading is all or nothing on arbitrary file content", "statement": "Whatever bytes the state file holds, loading either fails, leaving the target to rebuild everything, or yields a state in which every field of the schema was present in the file with the right type.", "quantifier": "every byte string", "why_tests_cant": "The file content is arbitrary.", "anchors": ["buildcc/schema/src/target_serialization.cpp Load", "buildcc/schema/include/schema/target_schema.h from_json"]}
{"id": "C19", "title": "A state that cannot be stored is reported", "statement": "If any string to be stored is not valid UTF-8 or the file cannot be opened for writing, the run ends in task state FAILURE and the previous state file is still there unchanged.", "quantifier": "every state and every non-UTF-8 string", "why_tests_cant": "All byte strings.", "anchors": ["buildcc/schema/src/target_serialization.cpp Store", "buildcc/lib/target/src/target/tasks.cpp EndTask", "buildcc/lib/env/include/env/util.h save_file"]}
{"id": "C20", "title": "Path normalisation is idempotent and spelling-insensitive", "statement": "The path stored for a file added through any Add*/Emplace API is in normal form: normalising it again changes nothing, it has no '.' component, no empty component, no '..' after a name; and two spellings that differ only by '.' components, repeated slashes or 'x/..' pairs give the same stored path.", "quantifier": "every path string (POSIX)", "why_tests_cant": "Paths are unbounded strings.", "anchors": ["buildcc/schema/include/schema/path.h ToPathString"]}
{"id": "C21", "title": "Different sources of a target get different object files", "statement": "Two different sources of one target never share an object file.", "quantifier": "every pair of sources and every target root and build directory", "why_tests_cant": "All pairs of paths; a collision silently links the wrong code.", "anchors": ["buildcc/lib/target/src/target/friend/compile_object.cpp ConstructObjectPath"]}
{"id": "C22", "title": "Object files stay inside the target build directory", "statement": "The object file of any source, including sources outside the target root, lies under the target build directory.", "quantifier": "every source path, root and build directory", "why_tests_cant": "All paths, including any number of '..' components.", "anchors": ["buildcc/lib/target/src/target/friend/compile_object.cpp ConstructObjectPath"]}
{"id": "C23", "title": "Paths in commands are quoted exactly when they contain a space", "statement": "When a path is inserted in a command it appears verbatim in normal form if it has no space and between double quotes if it has one, and (for paths without double quotes) the original path can be recovered from the text.", "quantifier": "every path", "why_tests_cant": "All strings.", "anchors": ["buildcc/schema/include/schema/path.h ToPathDisplayString, fmt::formatter<fs::path>"]}
{"id": "C24", "title": "Command construction substitutes each placeholder exactly once and nothing else", "statement": "Construct replaces every {name} of the pattern by the value bound to name, turns {{ and }} into single braces, keeps all other text verbatim and never rescans substituted values.", "quantifier": "every pattern built of literal text, escaped braces and named placeholders, and every binding", "why_tests_cant": "All patterns and all values, including values that themselves contain braces.", "anchors": ["buildcc/lib/env/src/command.cpp Construct"]}
{"id": "C25", "title": "A placeholder without a value is fatal", "statement": "If the pattern refers to a name that has no default and no call argument, or has an unmatched brace, Construct does not return a string.", "quantifier": "every pattern and every binding", "why_tests_cant": "All patterns.", "anchors": ["buildcc/lib/env/src/command.cpp Construct"]}
{"id": "C26", "title": "A call argument is used when supplied", "statement": "The value passed to Construct for a name is the one that appears in the command, even if a default argument of the same name exists.", "quantifier": "every pattern, defaults and call arguments", "why_tests_cant": "Precedence must hold for all bindings.", "anchors": ["buildcc/lib/env/src/command.cpp AddDefaultArgument, AddDefaultArguments, Construct"]}
{"id": "C27", "title": "The compile, PCH and link commands contain every configured flag, directory and file in the order given", "statement": "With the shipped GCC, MinGW and MSVC command templates the constructed commands are the space-joined concatenation, in order, of the compiler, prefixed include dirs, flags, output and input (respectively objects and libs), for every target configuration.", "quantifier": "every target configuration", "why_tests_cant": "Flags and directories are arbitrary lists of arbitrary strings.", "anchors": ["buildcc/lib/target/src/target/build.cpp Target::Build", "buildcc/lib/target/src/target/friend/compile_object.cpp CacheCompileCommands", "buildcc/lib/target/src/target/friend/link_target.cpp CacheLinkCommand", "buildcc/lib/target/src/target/friend/compile_pch.cpp ConstructCompileCommand", "buildcc/lib/target/include/target/common/util.h aggregate", "buildcc/targets/include/targets/target_gcc.h"]}
{"id": "C28", "title": "A generator callback runs exactly for the ids that need it", "statement": "In a run of a custom generator without failures the callback of an id runs if and only if there is no loaded state, or the id is new, or its input list, input timestamps or output list changed, or its blob handler says the blob changed; and it runs exactly once.", "quantifier": "every loaded state, every set of ids and every schedule", "why_tests_cant": "All stored states and configurations.", "anchors": ["buildcc/lib/target/src/custom_generator/custom_generator.cpp Comparator, TaskFunctor, ComputeBuild"]}
{"id": "C29", "title": "A successful generator run never leaves outputs older than their inputs", "statement": "When a generator run ends in SUCCESS, the last successful callback of every id was invoked with the current input list, the current input versions, the current outputs and the current blob.", "quantifier": "every history of runs, edits (also during a run), failures, schedules and crash points", "why_tests_cant": "Depends on the whole history and on edits that race with callbacks.", "anchors": ["buildcc/lib/target/src/custom_generator/custom_generator.cpp GenerateTask, TaskFunctor", "buildcc/lib/target/include/target/custom_generator.h ConvertToInternal"]}
{"id": "C30", "title": "A null generator run does nothing", "statement": "After a successful run, an unchanged generator runs no callback and does not touch the state file.", "quantifier": "every generator configuration and schedule", "why_tests_cant": "All configurations.", "anchors": ["buildcc/lib/target/src/custom_generator/custom_generator.cpp GenerateTask"]}
{"id": "C31", "title": "Failed generator ids are retried, completed ids are not repeated", "statement": "After a run in which some callbacks failed, the next unchanged run executes the callback of every id whose callback failed or was skipped because of the failure, and of no id whose callback succeeded or which was found unchanged.", "quantifier": "every subset of failing ids and every schedule", "why_tests_cant": "All subsets and interleavings.", "anchors": ["buildcc/lib/target/src/custom_generator/custom_generator.cpp GenerateTask"]}
{"id": "C32", "title": "Removing a generator id forgets it and runs nothing else", "statement": "If an id is removed the next run runs no callback of unchanged ids, and the stored state contains exactly the remaining ids, so that re-adding the id later runs its callback.", "quantifier": "every generator configuration and removed id", "why_tests_cant": "All configurations.", "anchors": ["buildcc/lib/target/src/custom_generator/custom_generator.cpp ComputeBuild, GenerateTask"]}
{"id": "C33", "title": "Changing the blob handling of an id regenerates it", "statement": "If an id gains, loses or changes its blob handler data, the next run executes its callback again.", "quantifier": "every pair of previous and current blob handlers", "why_tests_cant": "All handler pairs.", "anchors": ["buildcc/lib/target/src/custom_generator/custom_generator.cpp IsChanged", "buildcc/lib/target/include/target/custom_generator/custom_blob_handler.h CheckChanged"]}
{"id": "C34", "title": "A file generator runs its commands in order and stops at the first failure", "statement": "The commands of a FileGenerator are constructed and executed in the order added, none is executed after one that fails, the id succeeds iff all succeed, and adding, removing, reordering or editing a command makes the generator run again.", "quantifier": "every command list and failure pattern", "why_tests_cant": "All lists and failure points.", "anchors": ["buildcc/lib/target/src/generator/file_generator.cpp"]}
{"id": "C35", "title": "A template generator writes the substituted template", "statement": "For every template the output file receives exactly the input text with its placeholders substituted; a template with an unknown placeholder fails and the previous output is left untouched.", "quantifier": "every template text and bindings", "why_tests_cant": "All texts.", "anchors": ["buildcc/lib/target/src/generator/template_generator.cpp"]}
{"id": "C36", "title": "Blob data survives serialization", "statement": "The data behind a TypedCustomBlobHandler (a list of strings, as used by FileGenerator) is recovered exactly from its serialized blob, and two handlers compare equal iff their data are equal. A stored blob is accepted exactly if it is a MessagePack encoding of a list of strings.", "quantifier": "every list of strings and every stored byte string", "why_tests_cant": "All values and all length classes of the encoding.", "anchors": ["buildcc/lib/target/include/target/custom_generator/custom_blob_handler.h TypedCustomBlobHandler", "buildcc/lib/target/src/generator/file_generator.cpp"]}
{"id": "C37", "title": "Reg::Dep accepts exactly the dependencies that keep the graph acyclic and duplicate-free", "statement": "Any sequence of accepted Build and Dep calls yields an acyclic graph without parallel edges; Dep(target, dependency) on registered builders is rejected iff the edge is already present or would close a cycle (including target = dependency).", "quantifier": "every sequence of registrations", "why_tests_cant": "All graphs.", "anchors": ["buildcc/lib/args/src/register.cpp DepDetectDuplicate, DepDetectCyclicDependency, Dep"]}
{"id": "C38", "title": "Every registered target runs exactly once and after its dependencies", "statement": "Reg::Run executes the tasks of every registered target and generator exactly once and only after all its dependencies have finished, in every schedule, and it always terminates with all of them executed.", "quantifier": "every accepted registration sequence and every schedule", "why_tests_cant": "All graphs and all schedules.", "anchors": ["buildcc/lib/args/src/register.cpp Dep", "buildcc/lib/args/src/tasks.cpp RunBuild, BuildTask"]}
{"id": "C39", "title": "Fail-stop across targets", "statement": "If a target fails, no target that depends on it (directly or transitively) executes any command in this run, and Reg::Run does not return normally: the post-build callback and the tests do not run.", "quantifier": "every graph, schedule and failure pattern", "why_tests_cant": "All graphs and interleavings.", "anchors": ["buildcc/lib/target/src/target/tasks.cpp", "buildcc/lib/args/src/tasks.cpp RunBuild", "buildcc/lib/args/src/register.cpp Run"]}
{"id": "C40", "title": "A dependent target is linked against the library version of the same run", "statement": "If target B declares library target A through AddLibDep and Reg::Dep(B, A), then after a successful Run B's output was linked with A's current output, even when only A's sources changed.", "quantifier": "every history of multi-target runs and every schedule", "why_tests_cant": "Depends on the schedule of two targets and on histories.", "anchors": ["buildcc/lib/target/src/api/lib_api.cpp AddLibDep", "buildcc/lib/target/src/target/friend/link_target.cpp PreLink, BuildLink", "buildcc/lib/args/src/register.cpp Dep"]}
{"id": "C41", "title": "Conditional registration has no effect when the toolchain is disabled", "statement": "With state.build false, Func, Build, Dep and Test register and run nothing; with state.test false, Test registers nothing; and registering a test for an unbuilt target or twice is fatal.", "quantifier": "every sequence of registration calls with every condition", "why_tests_cant": "All sequences.", "anchors": ["buildcc/lib/args/include/args/register.h ToolchainInstance, CallbackInstance", "buildcc/lib/args/src/register.cpp Test"]}
{"id": "C42", "title": "Storage returns the object stored under an identifier, with its type", "statement": "Ref/ConstRef of an identifier with the type used in Add returns the object added first under that identifier since the last Clear; with another type or an unknown identifier it is fatal; Contains and Valid agree with that.", "quantifier": "every sequence of Add, Ref and Clear", "why_tests_cant": "All operation sequences.", "anchors": ["buildcc/lib/env/include/env/storage.h ScopedStorage"]}
{"id": "C43", "title": "Every object added to Storage is destroyed exactly once", "statement": "After Clear (or destruction) every object created by Add has been destroyed exactly once and none is destroyed while still reachable through Ref.", "quantifier": "every sequence of Add and Clear", "why_tests_cant": "All operation sequences.", "anchors": ["buildcc/lib/env/include/env/storage.h Add, Clear"]}
{"id": "C44", "title": "Copy and Insert affect exactly the selected fields", "statement": "Copy(options) makes each selected field equal to the source's and leaves the others unchanged; Insert(options) appends the source's entries in order and leaves the others unchanged; the source is unchanged by the const overloads.", "quantifier": "every pair of targets and every list of options", "why_tests_cant": "2^17 option sets and all lists.", "anchors": ["buildcc/lib/target/src/api/sync_api.cpp"]}
{"id": "C45", "title": "Copy and Insert by move transfer what Copy and Insert by reference would", "statement": "The rvalue overloads of Copy and Insert leave the receiving target exactly as the const overloads would.", "quantifier": "every pair of targets and every option list, including repeated options", "why_tests_cant": "All option lists.", "anchors": ["buildcc/lib/target/src/api/sync_api.cpp"]}
{"id": "C46", "title": "Toolchain::Find returns exactly the directories that contain all required executables", "statement": "A directory is in the result iff it is one of the searched directories and contains a file for each of the toolchain's executables; the order of the search is preserved.", "quantifier": "every search configuration, environment and directory content", "why_tests_cant": "All directory contents.", "anchors": ["buildcc/lib/toolchain/src/api/toolchain_find.cpp"]}
{"id": "C47", "title": "Toolchain::Verify installs the executables of the first verified directory", "statement": "After Verify succeeds, every executable of the toolchain is the full path inside the first matching directory and the returned info is the one reported by the registered callback; when none matches or no callback exists it is fatal. After it succeeded, a second Verify of the same toolchain is always fatal.", "quantifier": "every search result and callback", "why_tests_cant": "All search results.", "anchors": ["buildcc/lib/toolchain/src/api/toolchain_verify.cpp"]}
{"id": "C48", "title": "File classification is consistent", "statement": "Every file added through AddSource has an extension of the toolchain's C, C++ or assembler sets, every such file is compiled with the compiler and the flags of the same language, and no other file is accepted as a source; headers likewise.", "quantifier": "every path and toolchain configuration", "why_tests_cant": "All paths and configurations.", "anchors": ["buildcc/lib/toolchain/src/common/toolchain_config.cpp GetFileExt, IsValidSource", "buildcc/lib/target/src/target/target.cpp SelectCompiler, SelectCompileFlags", "buildcc/lib/target/include/target/api/source_api.h"]}
{"id": "C49", "title": "A toolchain is created with the configuration the user supplied", "statement": "When a specialized toolchain (gcc, mingw, msvc) is constructed with an explicit configuration, that configuration is the one it uses.", "quantifier": "every configuration", "why_tests_cant": "All configurations.", "anchors": ["buildcc/toolchains/include/toolchains/toolchain_gcc.h", "buildcc/toolchains/src/toolchain_aggregate.cpp"]}
{"id": "C50", "title": "A target starts with the flags of its toolchain", "statement": "A newly constructed target has exactly the toolchain's flags, in order, in each of the eight flag categories, and later additions come after them.", "quantifier": "every toolchain and every later sequence of Add calls", "why_tests_cant": "All lists.", "anchors": ["buildcc/lib/target/src/target_info/target_info.cpp Initialize", "buildcc/lib/toolchain/include/toolchain/api/flag_api.h"]}
{"id": "C51", "title": "Environment path lists are split losslessly", "statement": "Splitting a string produced by joining non-empty items without the delimiter gives back the items; the search over an environment variable visits exactly its entries in order.", "quantifier": "every list of items", "why_tests_cant": "All strings.", "anchors": ["buildcc/lib/env/include/env/util.h split", "buildcc/lib/toolchain/src/api/toolchain_find.cpp ParseEnvVarToPaths"]}
{"id": "C52", "title": "Trimming removes exactly the surrounding white space", "statement": "trim(s) has no leading or trailing white space, is a contiguous part of s with only white space around it, and is idempotent.", "quantifier": "every string", "why_tests_cant": "All strings.", "anchors": ["buildcc/lib/env/include/env/util.h ltrim, rtrim, trim"]}
{"id": "C53", "title": "compile_commands.json is valid JSON describing the commands", "statement": "The generated compile_commands.json parses as a JSON array with one entry per source whose directory, command and file are those of the target. It is written exactly if a target was rebuilt, every source has a compile command and the file can be opened; otherwise it keeps its content.", "quantifier": "every set of targets, commands and paths", "why_tests_cant": "All strings in commands and paths.", "anchors": ["buildcc/plugins/src/clang_compile_commands.cpp"]}
{"id": "C54", "title": "Builders do not share state files or output directories", "statement": "Two targets with different (toolchain name, target name) pairs under one project have different build directories, state files, output files and registration ids.", "quantifier": "every pair of names", "why_tests_cant": "All pairs of strings.", "anchors": ["buildcc/lib/target/include/target/target.h", "buildcc/lib/target/src/target/target.cpp Initialize"]}
{"id": "C55", "title": "The generated PCH header includes every PCH header once, in order", "statement": "The file compiled as PCH consists of a guard and one include line per PCH header of the target, in the order added.", "quantifier": "every list of PCH headers", "why_tests_cant": "All lists.", "anchors": ["buildcc/lib/target/src/target/friend/compile_pch.cpp AggregateToFile"]}
{"id": "C56", "title": "Tracked inputs that are deleted outputs are rebuilt", "statement": "If an object file, the PCH or the output of a target is deleted, the next run recreates it.", "quantifier": "every state and every deleted artifact", "why_tests_cant": "All states.", "anchors": ["buildcc/lib/target/src/target/friend/compile_object.cpp RecompileSources", "buildcc/lib/target/src/target/friend/link_target.cpp BuildLink"]}
{"id": "C57", "title": "Changing the toolchain or the command template rebuilds", "statement": "If the compiler executable or the target's command template changes between runs, the affected artifacts are rebuilt.", "quantifier": "every pair of configurations", "why_tests_cant": "All pairs.", "anchors": ["buildcc/lib/target/src/target/friend/compile_object.cpp BuildObjectCompile"]}
{"id": "C58", "title": "The task state changes only from SUCCESS to FAILURE during a run", "statement": "During Run no task ever sets the state back to SUCCESS, and a failure set by any thread is seen by RunBuild.", "quantifier": "every interleaving of set_task_state calls", "why_tests_cant": "All interleavings.", "anchors": ["buildcc/lib/env/src/task_state.cpp", "buildcc/lib/target/src/target/tasks.cpp"]}
{"id": "C59", "title": "A repeated source does not break incremental builds", "statement": "A target whose source list mentions a file twice still reaches the state in which an unchanged rebuild does nothing.", "quantifier": "every source list", "why_tests_cant": "All lists.", "anchors": ["buildcc/lib/target/src/target/friend/compile_object.cpp RecompileSources", "buildcc/lib/target/include/target/api/source_api.h"]}
{"id": "C60", "title": "Every build of a target ends, under every schedule", "statement": "Whatever order the thread pool picks for the compiles and whichever commands fail, a started target build always has a next step until its final task has run, takes a bounded number of steps, and can be completed from every intermediate point.", "quantifier": "every configuration, every file system state, every schedule and every outcome of the commands", "why_tests_cant": "All schedules.", "anchors": ["buildcc/lib/target/src/target/tasks.cpp", "buildcc/lib/target/src/target/build.cpp"]}
{"id": "C61", "title": "The result of a generator run does not depend on the schedule", "statement": "Two runs of a custom generator from the same state call the same callbacks with the same inputs, outputs and data and record the same state, whatever order the thread pool picks.", "quantifier": "every generator configuration, every start state and every two schedules", "why_tests_cant": "All interleavings of the tasks of the ids.", "anchors": ["buildcc/lib/target/src/custom_generator/custom_generator.cpp", "buildcc/lib/target/include/target/custom_generator.h"]}
{"id": "C62", "title": "Changing a substitution value regenerates the templates", "statement": "When the value of a placeholder used in a template generator changes between two runs, the outputs of the affected templates are written again.", "quantifier": "every template generator and every change of its patterns", "why_tests_cant": "All pattern maps and all histories.", "anchors": ["buildcc/lib/target/src/generator/template_generator.cpp"]}
{"id": "C63", "title": "No generator callback starts after a failure", "statement": "Once a callback of a generator or anything else in the same run has failed, no further callback of the generator is started.", "quantifier": "every generator, every schedule and every failure point", "why_tests_cant": "All interleavings.", "anchors": ["buildcc/lib/target/src/custom_generator/custom_generator.cpp GenerateTask"]}
{"id": "C64", "title": "Every generator run ends, under every schedule", "statement": "A started generator run always has a next step until its final task has run, takes a bounded number of steps, and can be completed from every intermediate point.", "quantifier": "every generator, file system state, schedule and outcome of the callbacks", "why_tests_cant": "All schedules.", "anchors": ["buildcc/lib/target/src/custom_generator/custom_generator.cpp"]}
{"id": "C65", "title": "The host search reports exactly the matching files of the searched directories", "statement": "BuildccFind::Search returns whether there is a file that matches in the directories that the environment variables list; each call adds the matching files to the list of matches, in the order of the variables and directories, so that n calls list them n times.", "quantifier": "every environment, directory content and matching function", "why_tests_cant": "All environments and directory contents.", "anchors": ["buildcc/plugins/src/buildcc_find.cpp", "buildcc/plugins/include/plugins/buildcc_find.h"]}
{"id": "C66", "title": "Creating a toolchain by its id gives a toolchain of that kind under that identifier", "statement": "Toolchain_generic::New is fatal exactly when the identifier is in use, when the id is Undefined, or when the id is Clang or Custom and no executables are given; otherwise the toolchain is the object registered under the identifier, has that name and id, and has the given executables or the default ones of its kind.", "quantifier": "every id, name, executables and earlier history of the registry", "why_tests_cant": "All histories of the registry.", "anchors": ["buildcc/toolchains/include/toolchains/toolchain_generic.h", "buildcc/toolchains/src/toolchain_aggregate.cpp"]}
{"id": "C67", "title": "A target contains exactly what was added to it, in order", "statement": "After any sequence of Add, Glob, Copy and Insert calls each list of a target has its earlier entries followed by exactly what the calls add to it, in call order, nothing else changes, and the sequence ends the program exactly when a path has a wrong extension or a directory cannot be listed.", "quantifier": "every sequence of calls, toolchain configuration, root directory and directory content", "why_tests_cant": "All sequences of calls.", "anchors": ["buildcc/lib/target/include/target/api/source_api.h", "buildcc/lib/target/include/target/api/include_api.h", "buildcc/lib/target/include/target/api/pch_api.h", "buildcc/lib/target/include/target/api/lib_api.h", "buildcc/lib/target/include/target/api/deps_api.h", "buildcc/lib/toolchain/include/toolchain/api/flag_api.h"]}
{"id": "C68", "title": "The ids of a generator are distinct and each has exactly what was given", "statement": "A custom generator has one entry for each AddIdInfo call, in call order, with the paths its patterns stand for at the time of the call; a second call with the same id is fatal; a placeholder keeps the value of its first AddPattern.", "quantifier": "every sequence of AddPattern, AddPatterns and AddIdInfo calls", "why_tests_cant": "All sequences of calls.", "anchors": ["buildcc/lib/target/src/custom_generator/custom_generator.cpp AddPattern, AddIdInfo"]}
{"id": "C69", "title": "compile_commands.json is current after Generate", "statement": "After every call of ClangCompileCommands::Generate that does not end the program, the file has an entry for each source of each target with its current command.", "quantifier": "every sequence of calls with any targets, rebuilt or not, and every earlier content of the file", "why_tests_cant": "All histories of builds and calls.", "anchors": ["buildcc/plugins/src/clang_compile_commands.cpp Generate"]}
{"id": "C70", "title": "A generic target equals the target of its toolchain", "statement": "Creating a generic executable, static library or dynamic library gives exactly the target the specialised class for the toolchain gives: the toolchain's flags followed by the default flags of that toolchain, the shipped link templates and output extension unless a configuration is given. It ends the program exactly when the project is not initialised, the type is not one of the three or the toolchain is not GCC, MinGW or MSVC. A target created directly with a configuration of its own ends the program exactly when the project is not initialised or the type is not one of the three, and otherwise has what it was given and the flags of its toolchain.", "quantifier": "every project, name, type, toolchain with any flags, environment and optional configuration", "why_tests_cant": "All combinations of toolchains, types, flags and configurations.", "anchors": ["buildcc/targets/include/targets/target_generic.h", "buildcc/targets/include/targets/target_gcc.h", "buildcc/targets/include/targets/target_mingw.h", "buildcc/targets/include/targets/target_msvc.h"]}
{"id": "C71", "title": "Objects use the precompiled header the target compiles", "statement": "With the shipped configurations, every object of a target with precompiled headers is compiled with flags that name exactly the header and the precompiled file which the command for the precompiled header reads and writes.", "quantifier": "every target, toolchain, sequence of Add, Glob and Insert calls and source", "why_tests_cant": "All targets, paths and sequences of calls; the two commands are built in different places.", "anchors": ["buildcc/targets/include/targets/target_gcc.h DefaultGccOptions", "buildcc/targets/include/targets/target_msvc.h DefaultMsvcOptions", "buildcc/lib/target/src/target/friend/compile_pch.cpp", "buildcc/lib/target/src/target/friend/compile_object.cpp"]}
{"id": "C72", "title": "A file generator runs the commands it was given", "statement": "After any sequence of AddPattern, AddPatterns, AddInput, AddOutput and AddCommand calls, Build creates one generation step whose commands are those added, in call order, each with the placeholders defined before its call, and whose inputs and outputs are those added, each once, with all placeholders.", "quantifier": "every sequence of calls and every iteration order of the hash sets", "why_tests_cant": "All sequences of calls; the moment at which a placeholder is read differs between commands and paths.", "anchors": ["buildcc/lib/target/src/generator/file_generator.cpp AddInput, AddOutput, AddCommand, Build"]}
{"id": "C73", "title": "A template generator has one step for each template", "statement": "After any sequence of AddPattern, AddPatterns and AddTemplate calls, Build creates one step for each template in call order with exactly its input and output; it does so whenever the inputs are different absolute paths, and two templates with the same input end the program.", "quantifier": "every sequence of calls, root directory and paths", "why_tests_cant": "All sequences of calls and all paths; steps are named by relative paths, which must stay distinct.", "anchors": ["buildcc/lib/target/src/generator/template_generator.cpp AddTemplate, Build"]}
{"id": "C74", "title": "Registration needs an initialised process", "statement": "Something can be registered or run exactly when Reg::Init succeeded and Reg::Deinit was not called since; Reg::Init needs a command line that was parsed and not dropped by Args::Deinit, sets the project directories from it, is without effect when repeated, and after Deinit and Init nothing of what was registered before remains; otherwise the process ends with status 1. At the end of a process that called Reg::Init everything is taken down. Only the option --clean of an earlier command line outlives Args::Deinit.", "quantifier": "every sequence of Args, Project and Reg calls and every command line", "why_tests_cant": "All histories of calls on process-wide state; tests reset the state in between.", "anchors": ["buildcc/lib/args/src/register.cpp Reg::Init, Deinit, Run", "buildcc/lib/args/src/args.cpp Args::Init, Deinit", "buildcc/lib/args/src/parse.cpp", "buildcc/lib/env/src/env.cpp Project"]}
{"id": "C75", "title": "Run builds first, then runs every test once", "statement": "Reg::Run builds what is registered, then calls the given function, then runs every registered test exactly once, in any order and in parallel; when the build fails neither the function nor a test is run, and a failing test makes the process fail.", "quantifier": "every sequence of calls, set of tests, result of the tests and schedule", "why_tests_cant": "All interleavings of the tests and all sets of failures.", "anchors": ["buildcc/lib/args/src/register.cpp Reg::Run, Instance::RunTest", "buildcc/lib/args/src/tasks.cpp"]}
{"id": "C76", "title": "A test runs the command that was given and its output is shown", "statement": "The command run for a test is the given one with its placeholders replaced by the arguments and the path of the target, in the given directory, and nothing else is run; its output goes where the configuration says, unchanged.", "quantifier": "every test, configuration and answer of the process", "why_tests_cant": "All commands, arguments and outputs.", "anchors": ["buildcc/lib/args/src/register.cpp TestInfo::TestRunner", "buildcc/lib/args/include/args/register/test_info.h"]}
{"id": "C77", "title": "Verify reports the compiler that will be used", "statement": "Verify returns the version and the target architecture that the compiler in the first directory with all executables reports, and fails when there is no such directory or the compiler cannot be asked; for MSVC they are those of the developer prompt; a custom toolchain without a callback cannot be verified.", "quantifier": "every host, toolchain, search configuration and answer of the compiler", "why_tests_cant": "All hosts, paths and answers.", "anchors": ["buildcc/toolchains/src/toolchain_infos.cpp", "buildcc/lib/toolchain/src/api/toolchain_verify.cpp"]}
{"id": "C78", "title": "buildexe builds the target that its command line describes", "statement": "The target built by buildexe has the name, type, directory and toolchain of the command line; each of its lists consists of what the toolchain and the kind of target bring, then the values of the command line in order, resolved against the target's directory, then, in script mode, what the library buildcc needs of its users, the headers of the build directory and the files of the chosen libraries. It is refused exactly for a missing project, an unsupported type or toolchain, a source with an unknown extension, or a build directory that cannot be listed.", "quantifier": "every command line, toolchain, library and content of directories", "why_tests_cant": "All combinations of options.", "anchors": ["buildexe/src/build_env_setup.cpp BuildEnvSetup", "buildexe/src/args_setup.cpp"]}
{"id": "C79", "title": "buildexe runs the script it built, and only then", "statement": "In script mode the built program is run exactly once, after a successful build, with every given configuration file in order, and the exit status tells whether it succeeded; in immediate mode and after a failed build nothing is run; the status is 1 when the toolchain cannot be verified, the target is refused or the build fails.", "quantifier": "every command line and every answer of the host, the build and the script", "why_tests_cant": "All combinations of failures and arguments.", "anchors": ["buildexe/buildexe.cpp main", "buildexe/src/build_env_setup.cpp BuildEnvSetup::RunUserTarget"]}
{"id": "C80", "title": "Scripts see the directory of every library", "statement": "The header generated for scripts is valid C++ that declares, for every directory in the library directory and nothing else, a constant with the name of the directory and its path as value.", "quantifier": "every library directory", "why_tests_cant": "All directory names and paths.", "anchors": ["buildexe/src/build_env_setup.cpp UserTargetWithLibsSetup", "buildexe/src/args_setup.cpp ArgLibsInfo::Add", "buildexe/src/build_env_home.cpp"]}
{"id": "C81", "title": "Running buildexe again does nothing", "statement": "A second run of buildexe with the same command line, when no input has changed, compiles and links nothing.", "quantifier": "every command line, schedule and history before the first run", "why_tests_cant": "All histories and schedules of two processes.", "anchors": ["buildexe/src/build_env_setup.cpp", "buildcc/lib/target"]}
{"id": "C82", "title": "The commands of shipped targets with shipped toolchains", "statement": "For a target of one of the shipped classes (executable, static or dynamic library for GCC, MSVC or MinGW) built with the shipped toolchain of that family, every compile, precompiled header and link command consists of exactly the documented words in the documented order: tool, preprocessor and flags of the source type, include, library and output options of the family, and files; nothing is dropped, added or moved.", "quantifier": "every target class, toolchain, set of flags, directories, libraries, objects and paths", "why_tests_cant": "All combinations of families, source types and inputs.", "anchors": ["buildcc/lib/toolchain/include/toolchain/common/toolchain_config.h", "buildcc/targets/include/targets", "buildcc/toolchains/include/toolchains", "buildcc/lib/target/src/target/friend/compile_object.cpp", "buildcc/lib/target/src/target/friend/compile_pch.cpp", "buildcc/lib/target/src/target/friend/link_target.cpp"]}
{"id": "C83", "title": "A parallel build has no data races and no deadlock", "statement": "While the tasks of a build and then the tests run in parallel, no two threads touch the same memory at the same time with one of them writing, whatever targets, generators and tests are registered and whatever fails; and at no point are all running tasks waiting for a mutex.", "quantifier": "every set of builders, dependencies, sources, ids and tests, every interleaving of the memory accesses of all threads, every point of failure", "why_tests_cant": "Races show up in rare schedules only, and the number of interleavings is unbounded.", "anchors": ["buildcc/lib/env/src/task_state.cpp set_task_state, get_task_state", "buildcc/lib/target/src/target/tasks.cpp", "buildcc/schema/src/target_serialization.cpp AddSource", "buildcc/lib/target/src/custom_generator/custom_generator.cpp GenerateTask, TaskFunctor", "buildcc/lib/args/src/tasks.cpp", "buildcc/lib/args/src/register.cpp TestRunner"]}
{"id": "C84", "title": "A build script that keeps to the rules is always built correctly", "statement": "Take a script that makes its targets with Target_generic or the shipped target classes in the project's build directory, under names without separators, with any root directories; that gives each target each source once, and no two sources whose object files are the same file (as two sources below the root of a target never have); that gives no file of the build directory except the outputs of its own targets, as libraries; and that declares with Reg::Dep every target it links. Whatever is edited or deleted between builds or during earlier builds (but not the headers of a target with precompiled headers after the start of its precompiling command and before its compile commands), whatever commands fail and wherever builds are killed: whenever Reg::Run returns with success, and no file was edited while it ran, every target is what a build from scratch would leave and every target is linked with the present version of each library it links.", "quantifier": "every such script, every order of registration Reg accepts, every schedule, every history of edits, failures and crashes in which edits give new time stamps", "why_tests_cant": "The claim is about every script and every history of builds of it.", "anchors": ["buildcc/lib/args/src/register.cpp", "buildcc/lib/args/include/args/register.h", "buildcc/targets/include/targets/target_generic.h", "buildcc/lib/target/include/target/target.h", "buildcc/lib/target/src/target/build.cpp", "buildcc/lib/target/src/target/tasks.cpp"]}
{"id": "C85", "title": "The bootstrap script builds the library from its sources, and rebuilds it correctly", "statement": "When the bootstrap script gets to Reg::Run, the target libtpl is given the sources and the header of the tiny process library, libbuildcc every C++ source of its source directories, their headers and the headers of the third-party libraries, and the example the library and libtpl; the include directories, flags and system libraries of the library are passed on to the example. In a checkout whose build directory holds no sources, whatever is edited or deleted between builds or during earlier builds (but not the headers of a target with precompiled headers after the start of its precompiling command and before its compile commands), whatever commands fail and wherever builds are killed: whenever Reg::Run returns with success, and no file was edited while it ran, the two libraries and the example are what a build from scratch would leave, and the example is linked with the present versions of both libraries. Every header of the library is tracked.", "quantifier": "every checkout (listing of the directories), every toolchain with a plain name, every schedule, every history of edits, failures and crashes in which edits give new time stamps", "why_tests_cant": "The script is run against every state of the source tree and every history of builds.", "anchors": ["bootstrap/main.buildcc.cpp", "bootstrap/src/build_buildcc.cpp", "bootstrap/src/build_tpl.cpp", "bootstrap/src/build_nlohmann_json.cpp", "bootstrap/src/build_taskflow.cpp", "buildcc/lib/target/include/target/api/source_api.h"]}
{"id": "C86", "title": "In script mode buildexe runs an up-to-date program", "statement": "With --mode script, buildexe builds the libraries libtpl and libbuildcc from BUILDCC_HOME/buildcc and links the user's program with them. Run it again and again with one command line, whose files are not in a build directory, and whose sources are given once and have different object files. Whatever is edited or deleted between runs or during earlier runs (but not the headers of a target with precompiled headers after the start of its precompiling command and before its compile commands), also in BUILDCC_HOME, whatever commands fail and wherever runs are killed: whenever the build ends with success, and no file was edited while it ran, both libraries and the program are what a build from scratch would leave, the program is linked with the present versions of both libraries, and that program is the one that is run.", "quantifier": "every command line in script mode, every content of BUILDCC_HOME and the project, every toolchain with a plain name, every schedule, every history of edits, failures and crashes in which edits give new time stamps", "why_tests_cant": "A stale program or library shows only after some history of edits and failed runs; there is no bound on these.", "anchors": ["buildexe/buildexe.cpp", "buildexe/src/build_env_setup.cpp", "buildexe/src/build_env_home.cpp", "bootstrap/src/build_buildcc.cpp", "buildcc/lib/args/src/register.cpp"]}
{"id": "C87", "title": "buildexe tries the host toolchain in every script run", "statement": "With --mode script, buildexe writes a small program below the build directory, builds it with the chosen toolchain and runs it. The program is built from that file alone, with the flags of the toolchain and the flag for C++17. A run passes only if in this very run the file was compiled, the program was linked, and the program was run with success, even when an earlier run left everything in place. A toolchain that can do this passes. The last sentence is false when the path of the build directory has a space in it: the path of the program is not quoted.", "quantifier": "every project, toolchain, state left by earlier runs, every schedule and outcome of the commands, every shell", "why_tests_cant": "Whether the check is skipped depends on the state left by earlier runs; whether it can pass depends on the directory it is run in.", "anchors": ["buildexe/src/toolchain_setup.cpp", "buildexe/buildexe.cpp", "buildcc/lib/env/src/execute.cpp"]}
{"id": "C88", "title": "A build script with generated sources is always built correctly", "statement": "Take a script as in C84 that also has generators, whose outputs are anywhere but in the directories of its targets, and that declares with Reg::Dep every target and generator whose outputs a target or generator is given, as sources, headers, libraries, dependencies or inputs. Whatever is edited or deleted between builds or during earlier builds (but not the headers of a target with precompiled headers after the start of its precompiling command and before its compile commands, and not the inputs of a generator's id after its callback was started or it was found unchanged), whatever commands fail and wherever builds are killed: whenever Reg::Run returns with success, and no file was edited while it ran, every target is what a build from scratch would leave, for every id of a generator the last callback succeeded and was given the present versions of its inputs, its outputs and its data, the commands of every file generator were last run to the end with the present versions of its inputs, and every target is linked with the present version of each library it links.", "quantifier": "every such script, every order of registration Reg accepts, every schedule, every history of edits, failures and crashes in which edits give new time stamps", "why_tests_cant": "A stale generated source shows only after some history of edits, failures and crashes, under some schedule; there is no bound on these.", "anchors": ["buildcc/lib/args/src/register.cpp", "buildcc/lib/target/src/custom_generator/custom_generator.cpp", "buildcc/lib/target/src/generator/file_generator.cpp", "buildcc/lib/target/src/target/build.cpp"]}
{"id": "C89", "title": "A script gets the toolchains and targets of the command line", "statement": "After AddToolchain(name, description, out, initial) and Parse, the id, name and executables in out are those given for that toolchain on the command line (or in the files of --config) and otherwise those of initial, whatever is given for other toolchains and targets; its build and test flags are those given, otherwise those out had; its configuration is that of initial. ConstructToolchain makes a toolchain with exactly this id, name and executables, and with the executables of its kind when none are given. AddTarget does the same for the compile and link commands, which GetTargetConfig returns. The program ends exactly when two toolchains or two targets have one name, or when an id is given that names no kind of toolchain.", "quantifier": "every list of declarations with variables of their own, every command line, every storage", "why_tests_cant": "Tests try a few command lines; that no value for one toolchain reaches another needs all declarations and all values.", "anchors": ["buildcc/lib/args/src/args.cpp: Args::AddToolchain, Args::AddTarget, kToolchainIdMap", "buildcc/lib/args/include/args/args.h: ArgToolchain, ArgTarget", "buildcc/lib/args/src/parse.cpp"]}
{"id": "C90", "title": "buildexe does what its command line says, or fails without building anything", "statement": "buildexe ends with status 0 exactly when BUILDCC_HOME is set and has its directories, root and build directory, name, type, mode and place of the target are given and name what they should, the five executables given for the toolchain are together in a directory of PATH and the compiler there says what it is, the inputs can be added to a target of that toolchain and the build succeeds, and in script mode also the library can be set up and the toolchain passes its check. It has then, in this order, removed the build directory if --clean is given, built the named target from exactly the values of the command line, run it once with all configuration files (script mode only) and written compile_commands.json. With any other status nothing was built and nothing was run; the build directory is then removed exactly when --clean is given and the rest of the command line can be read. All five executables have to be given, and the kind of toolchain has to be gcc, mingw or msvc: with any other command line no machine lets buildexe end with status 0.", "quantifier": "every command line, environment, content of PATH and of the home directory, every answer of processes, every outcome of the builds", "why_tests_cant": "There are infinitely many command lines and machines; that no condition is missing is a statement about all of them.", "anchors": ["buildexe/buildexe.cpp: main", "buildexe/src/args_setup.cpp", "buildexe/src/build_env_home.cpp", "buildexe/src/build_env_setup.cpp", "buildexe/src/toolchain_setup.cpp", "buildcc/lib/args/src/args.cpp", "buildcc/lib/toolchain/src/api/toolchain_verify.cpp"]}
{"id": "C91", "title": "Everything a build writes goes into a directory that exists", "statement": "Once a target object exists and its sources are known, the directories of all files its build writes (objects of sources inside and outside of its root directory, the program or library, the state file, and the header, source, compiled header and object of the precompiled header) exist and stay as long as nobody removes directories, so no command and no save fails for want of a directory. The same holds for the state file of a generator and outputs directly in its build directory, and for compile_commands.json. Making the object fails only if a file is in the way of the build directory. After --clean nothing is left in the build directory, nothing else is touched, and everything above holds again.", "quantifier": "every disk, working directory, root and build directory (absolute or relative, normalised or not), toolchain, name, extension and list of sources", "why_tests_cant": "Directories are created at two places and files are written at seven; that every file is covered for every spelling of the paths and every place of a source is a statement about all paths.", "anchors": ["buildcc/lib/target/src/target/target.cpp: Target::Initialize", "buildcc/lib/target/src/target/friend/compile_object.cpp: AddObjectData", "buildcc/lib/target/src/target/friend/compile_pch.cpp", "buildcc/lib/target/src/custom_generator/custom_generator.cpp: Initialize", "buildcc/schema/src/target_serialization.cpp: StoreToFile", "buildcc/plugins/src/clang_compile_commands.cpp", "buildcc/lib/target/src/generator/template_generator.cpp: template_generate_cb", "buildexe/buildexe.cpp: clean_cb"]}
{"id": "C92", "title": "The files that the PCH command reads are on disk when it is executed", "statement": "When the command for the precompiled header is executed, the generated header is on disk at the path given to the command and includes exactly the headers of the target in order, the generated source is on disk at the path given to the command, and no other file was touched.", "quantifier": "every disk, build directory, toolchain and list of headers", "why_tests_cant": "The paths depend on the build directory; tests run in the directories they were written for.", "anchors": ["buildcc/lib/target/src/target/friend/compile_pch.cpp: AggregateToFile, CompilePch::BuildCompile", "buildcc/lib/env/include/env/util.h: save_file", "buildcc/schema/include/schema/path.h: fmt::formatter<fs::path>"]}
{"id": "C93", "title": "Building again without a change does nothing", "statement": "After a build of a whole script that succeeded, as long as nobody edits or deletes a file or a state file, starting the script again any number of times, completely or only some of its builders in the same configuration, with processes killed at any moment, executes no command and no callback of any target or generator, leaves every file, every state file and every artifact as it is, and never fails.", "quantifier": "every history before the first build, every script that declares its dependencies, every schedule of the first and of all later builds, every number of later builds, every subset of the builders, every crash point", "why_tests_cant": "A test repeats one project once under one schedule. That one builder's work can never make another one rebuild, after any number of builds and crashes, is a statement about all of them.", "anchors": ["buildcc/lib/target/src/target/build.cpp", "buildcc/lib/target/include/target/custom_generator.h", "buildcc/lib/args/src/register.cpp: Reg::Run", "buildcc/lib/target/src/target/friend/compile_object.cpp: RecompileSources", "buildcc/lib/target/src/target/tasks.cpp"]}
{"id": "C94", "title": "A change rebuilds what is affected by it and nothing else", "statement": "After a build of a script that succeeded, whatever is then edited, deleted, built by other scripts or killed, as long as a builder's own state file stays and no other script contains the builder: a later build of a script with this builder in the same configuration executes a command or callback of it only if one of its own inputs is different from what it was after the first build; and then that input was already changed when the build began, or the builder depends, directly or not, on a builder that has been executed in this build. In a target a source is compiled again only if it, a header, a precompiled header or a compile dependency changed, so a changed library only makes it link again; in a generator a callback is called again only if an input of its id changed.", "quantifier": "every history before and between the two builds, both scripts, every schedule, every builder, at every moment of the second build", "why_tests_cant": "Tests look at a few projects; that no combination of edits, crashes, other builds and schedules makes an unaffected builder run needs all of them.", "anchors": ["buildcc/lib/target/src/target/build.cpp", "buildcc/lib/target/src/target/friend/compile_object.cpp: RecompileSources", "buildcc/lib/target/src/target/friend/compile_pch.cpp", "buildcc/lib/target/include/target/custom_generator.h", "buildcc/lib/args/src/register.cpp"]}
{"id": "C95", "title": "The order in which sets are listed does not matter to a generator", "statement": "The inputs and outputs of an id and the patterns of AddPatterns are sets and maps: a script that lists the same elements in another order gets the same generator, with the same placeholders and, for each id, the same inputs and outputs, and nothing is generated again because of it.", "quantifier": "every sequence of calls, every order in which the hash sets and maps are iterated, every history and schedule", "why_tests_cant": "The iteration order of hash containers is up to the library, the hash function and the order of insertion; a test sees one of them.", "anchors": ["buildcc/lib/target/src/custom_generator/custom_generator.cpp: AddIdInfo, AddPatterns", "buildcc/lib/target/src/generator/file_generator.cpp: Build", "buildcc/schema/include/schema/path.h: PathInfoList::IsEqual, PathList::IsEqual"]}
{"id": "C96", "title": "Declaring a dependency takes a time bounded by the size of the script", "statement": "Reg::Dep returns after a number of steps that is bounded by the number of registered builders and grows no faster than it.", "quantifier": "every script of accepted calls, every pair of builders", "why_tests_cant": "The time depends on the number of chains of dependencies in the script; tests have graphs of three or four builders.", "anchors": ["buildcc/lib/args/src/register.cpp: DepDetectCyclicDependency, Instance::Dep"]}
{"id": "C97", "title": "The built files hold what the contents of the files give", "statement": "After a successful build the precompiled header, every object and the target hold exactly what the compiler and the linker make of the contents that the files have now, whatever the tools compute; in particular a file that got another content is noticed.", "quantifier": "every tool chain as a function of its inputs, every history of edits (contents and time stamps), builds, failures and crashes, every schedule", "why_tests_cant": "The build system looks at time stamps only; whether contents are right depends on all histories of edits and on what every tool computes.", "anchors": ["buildcc/schema/include/schema/path.h: PathInfoList::ComputeHash", "buildcc/lib/target/src/target/tasks.cpp", "buildcc/lib/target/src/target/friend/compile_object.cpp: RecompileSources"]}
{"id": "C98", "title": "The outputs of a generator hold what its callbacks make of the present contents of its inputs", "statement": "Whatever the callbacks of a CustomGenerator compute from their data and the contents of their inputs, and whatever failed or killed callbacks left in their outputs: when a run of the generator succeeds, every output of every id holds what the callback of that id makes of its data and of the contents that the inputs of the id have at that moment, also when the run called no callback. An edit that changes the content of an input and keeps its time stamp is not noticed, nor is an output that somebody else changed or deleted.", "quantifier": "every callback as a function of its data and the contents of its inputs, every configuration, schedule, failure, crash and history of edits with new time stamps and of earlier runs of the same configuration", "why_tests_cant": "A stale output shows only after some history of edits, failures and crashes, for some content; there is no bound on these.", "anchors": ["buildcc/lib/target/src/custom_generator/custom_generator.cpp GenerateTask, TaskFunctor", "buildcc/schema/include/schema/path.h ComputeHash"]}
{"id": "C99", "title": "A build script always leaves what one build from scratch of its source files leaves", "statement": "Take a script of targets and generators that registers every dependency, in which every file is made by at most one builder. Edit and delete its source files between builds, let commands and callbacks fail and leave anything in their outputs, kill builds. Whenever Reg::Run then returns with success and no file was changed while it ran, every program, library and generated file has the content that one build would give it that starts with the present source files and nothing else and runs every builder once. So two such directories with equal source files, whatever their time stamps and histories, have equal products when linking does not depend on the order of the object files. A library that somebody changed by hand is left as it is, and linked.", "quantifier": "every behaviour of compilers, linkers and callbacks as functions of the contents they are given, every such script, every order of registration Reg accepts, every schedule, every history of edits with new time stamps, failures and crashes", "why_tests_cant": "Wrong contents show only after some history of edits, failures and crashes, under some schedule; there is no bound on these or on the scripts.", "anchors": ["buildcc/lib/args/src/register.cpp Reg::Run", "buildcc/lib/target/src/target/tasks.cpp", "buildcc/lib/target/src/target/build.cpp", "buildcc/lib/target/src/custom_generator/custom_generator.cpp"]}
{"id": "C100", "title": "A build script that is edited between builds is always built as its present version says", "statement": "Take a build script and edit it between builds: change flags, includes and commands, add and remove sources, libraries, dependencies, targets and generators, and go back to earlier versions, as long as each version registers its dependencies, a target keeps its directories and toolchain, no two sources it is ever given have the same object file, and it has a precompiled header in all versions or in none. Edit and delete source files, let commands fail, kill builds. Whenever Reg::Run then returns with success and no file was changed while it ran, every target and generator of the present version is what a build from scratch of it would leave, no matter which versions were built before, and every target is linked with the present version of the libraries it was given. This needs that after a killed build the builders that were running are not configured otherwise before one of their runs has ended: if the edit is undone right after the kill, the next build succeeds and keeps an object file compiled with the edited flags.", "quantifier": "every set of versions of a script, every order in which they are built, every schedule, every history of edits with new time stamps, failures and crashes", "why_tests_cant": "A wrong result shows only after some history of versions, edits, failures and crashes, under some schedule; there is no bound on these or on the scripts.", "anchors": ["buildcc/lib/args/src/register.cpp Reg::Run", "buildcc/lib/target/src/target/build.cpp", "buildcc/lib/target/src/target/recheck_states.cpp", "buildcc/lib/target/src/target/tasks.cpp", "buildcc/lib/target/src/custom_generator/custom_generator.cpp"]}
{"id": "C101", "title": "After builds of an edited script the products are those of a build from scratch of its present version", "statement": "Take a build script that is edited between builds as in C100, and let every program, library and generated file have the same maker in all versions in which it is made. Edit and delete source files between builds, let commands fail and leave anything, kill builds, go back to earlier versions. Whenever Reg::Run then returns with success and no file was changed while it ran, every program, library and generated file of the present version has the content that one build of this version would give it that starts with the present source files and nothing else. So a directory in which many versions were built and a fresh checkout in which only the present one was built have equal products when linking does not depend on the order of the object files. A file that generator a made, then generator b of another version, stays what b made when the edit is taken back: the build succeeds and a is not run.", "quantifier": "every behaviour of compilers, linkers and callbacks as functions of the contents they are given, every set of versions of a script, every order in which they are built, every schedule, every history of edits with new time stamps, failures and crashes", "why_tests_cant": "Wrong contents show only after some history of versions, edits, failures and crashes, under some schedule; there is no bound on these or on the scripts.", "anchors": ["buildcc/lib/args/src/register.cpp Reg::Run", "buildcc/lib/target/src/target/build.cpp", "buildcc/lib/target/src/target/tasks.cpp", "buildcc/lib/target/src/custom_generator/custom_generator.cpp"]}
{"id": "C102", "title": "Several processes may build one target at the same time", "statement": "Start any number of build processes for the same target in the same build directory, at any time, also while others build; there is no lock. Let all of them use one configuration in which no source is listed twice and no two sources share an object file, edit files only while nobody builds and with new time stamps, and let failed commands leave their outputs as they were. Commands may fail, processes may be killed at any instant, also while they write the state file, and a process may read the state file while another one writes it. Whenever one process has ended with success and no file was changed since it started, the precompiled header, every object file and the linked target are what a build from scratch leaves, also while the others still build. While files are left alone the course of a process, its commands, their results, its log and its result, is that of a process alone, whatever the others do. An edit of a source while one process builds, followed by the start of a second one, can leave an object of the old source that every later build takes for built; the same with two configurations, and when a failed command of one process removes an object that the other has made.", "quantifier": "every number of processes, every interleaving of their steps, every configuration with one of the shipped templates, every history of edits between builds, every pattern of failures and crash points", "why_tests_cant": "The processes can be interleaved in unboundedly many ways; a wrong one needs a command of one process to end at a particular point of another.", "anchors": ["buildcc/lib/target/src/target/tasks.cpp", "buildcc/lib/target/src/target/build.cpp", "buildcc/lib/env/include/env/util.h save_file", "buildcc/schema/include/schema/interface/serialization_interface.h LoadFromFile"]}
{"id": "C103", "title": "Several processes may run one generator at the same time", "statement": "Start any number of processes that run the same custom generator in the same build directory, at any time, also while others run; there is no lock. Let all of them use one configuration, edit files only while nobody runs and with new time stamps, let every callback that is called return true, and kill no process while one of its callbacks runs. Processes may fail in other ways and may be killed otherwise at any instant, also while they write the state file, and a process may read the state file while another one writes it. Whenever one process has ended with success and no file was changed since it started, every id whose callback does not run in another process at that moment is up to date: its last callback returned true and was given the configured inputs in their present versions, the configured outputs and the configured data. While files are left alone the course of a process, its callbacks, its log and its result, is that of a process alone, whatever the others do. A callback of one process that is killed, fails, has read an input before an edit, or has other data, after another process has stored the state, leaves outputs that every later run takes for good.", "quantifier": "every number of processes, every interleaving of their steps, every configuration, every history of edits between runs, every pattern of failures outside of callbacks and of crash points outside of callbacks", "why_tests_cant": "The processes can be interleaved in unboundedly many ways; a wrong one needs a callback of one process to end at a particular point of another.", "anchors": ["buildcc/lib/target/src/custom_generator/custom_generator.cpp TaskFunctor, GenerateTask", "buildcc/lib/env/include/env/util.h save_file", "buildcc/schema/include/schema/interface/serialization_interface.h LoadFromFile"]}
{"id": "C104", "title": "The compiler and the linker get the arguments that the script describes", "statement": "For every target of a shipped GCC or MinGW class, the shell that executes a compile, precompiled header or link command starts the configured tool with exactly the described arguments in the described order: the words of the flags, one argument for each include directory, library directory and library, the object files, the output and the source, each of them exactly the path that the script has given or that the build directory determines. Build directories and tools may have spaces in their paths. This is false for spaces in other paths: a source, include directory, library or library directory with a space in its path is never given to the tool, because these are not quoted; so no project in a directory with a space can be built.", "quantifier": "every shipped GCC and MinGW target, set of flags, directories, libraries, sources, objects and paths of ordinary characters; flags may contain quotes and backslashes", "why_tests_cant": "The text of a command is read by a shell; that its words are the intended arguments depends on every character of every flag and path.", "anchors": ["buildcc/lib/env/src/execute.cpp Command::Execute", "buildcc/lib/target/src/target/friend/compile_object.cpp CacheCompileCommands", "buildcc/lib/target/src/target/friend/link_target.cpp BuildLink", "buildcc/lib/target/src/target/target.cpp Target", "buildcc/schema/include/schema/path.h ToPathDisplayString", "buildcc/targets/include/targets/target_gcc.h", "buildcc/targets/include/targets/target_mingw.h"]}
{"id": "C105", "title": "Tests, commands of generators and the script of buildexe get the arguments they were given", "statement": "The shell that executes the command of a test starts the target of the test, and nothing else, with the arguments that the words of the command after {executable} stand for; the target may have spaces in its path. A command of a file generator is read as the words of its pattern; a placeholder in double quotes is one argument whatever spaces its value has. buildexe starts the built script with --config and the name for each configuration file, in their order. Two parts are false with spaces: a directory that the generator provides is not quoted, so without quotes in the pattern it is several arguments, and a configuration file with a space in its name is never passed to the script.", "quantifier": "every target, test command, argument, generator, pattern, command line of buildexe and list of configuration files", "why_tests_cant": "The text of a command is read by a shell; that its words are the intended arguments depends on every character of every value.", "anchors": ["buildcc/lib/args/src/register.cpp TestInfo::TestRunner", "buildcc/lib/target/src/generator/file_generator.cpp AddCommand", "buildcc/lib/target/src/custom_generator/custom_generator.cpp ParsePattern, Initialize", "buildexe/src/build_env_setup.cpp RunUserTarget", "buildcc/lib/env/src/execute.cpp Command::Execute"]}
{"id": "C106", "title": "A script that keeps to simple rules is always built correctly", "statement": "A build script that keeps to rules that can be seen in its text (different plain target names; each target takes single sources with different file names, in any directories; libraries come from earlier targets that are declared as dependencies, once each) is accepted by Reg, and registers exactly what it says. However its files are edited and deleted, however builds fail or are killed, whenever Reg::Run returns with success every target is what a build from scratch would leave, and every target that was given another one with AddLibDep is linked with the present version of it. The scripts in example/hybrid without generators keep to the rules.", "quantifier": "every script of this form, project directory, toolchain, listing of directories, and every history of edits, failing, killed and successful builds", "why_tests_cant": "The rules are about the text of any script, and the claim is about every history of builds of it.", "anchors": ["buildcc/lib/args/src/register.cpp Reg::Instance", "buildcc/lib/args/include/args/register.h CallbackInstance", "buildcc/lib/target/include/target/api", "example/hybrid", "example/gcc/StaticLib/build.cpp"]}
{"id": "C107", "title": "Headers in the include directories of a target are tracked", "statement": "If the script gives every include directory with AddIncludeDir(dir, true) and takes the headers together with the include directories of other objects, then every header file in an include directory of a target, whatever is in the directories, is among the files whose change recompiles the target. The examples single, simple, foolib, external_lib, custom_target and target_info keep to this rule. It is false of the examples generic, StaticLib and DynamicLib: the programs include a header of the library which they do not track; and the generators of dep_chaining have no inputs, so a change of the script that generates the sources generates nothing. A header in a directory below an include directory is found by the compiler and never tracked by this call.", "quantifier": "every script, project directory, toolchain and listing of directories", "why_tests_cant": "A missing header shows only in a build after a change of this header.", "anchors": ["buildcc/lib/target/include/target/api/include_api.h AddIncludeDir, GlobHeaders", "buildcc/lib/target/src/api/sync_api.cpp Copy, Insert", "example/hybrid", "example/gcc/StaticLib/build.cpp", "example/gcc/DynamicLib/build.cpp"]}
{"id": "C108", "title": "A script with file generators whose text keeps to simple rules always gives a correct build", "statement": "Take a script with file generators, one toolchain, and targets that may take generated files as sources. If its text keeps to simple rules (names are plain and different, outputs of a generator are files in its own directory, a target that takes a file of a generator is declared with Reg::Dep to depend on it, and the rules of C106 for the rest), its build directory is below its root directory and no other given file is in the build directory, then Reg accepts its calls, and however the script was run, killed and run again with files edited and deleted in between, after a successful Reg::Run every target is what a build from scratch would leave, the commands of every generator were last run with the present versions of its inputs, every file that a target takes from a generator is a source of the target and an output of the generator, and every target is linked with the present version of the libraries given with AddLibDep. The example dep_chaining keeps to the rules wherever it runs.", "quantifier": "every such text, every place, every toolchain, every iteration order of hash sets, and every history of edits, builds, failures and kills", "why_tests_cant": "The claim is about all scripts and all histories; a missing order between the generation and the compilation of a file shows only in some schedules.", "anchors": ["buildcc/lib/target/src/generator/file_generator.cpp", "buildcc/lib/target/src/custom_generator/custom_generator.cpp CustomGenerator::Initialize, Get", "buildcc/lib/args/src/register.cpp", "example/hybrid/dep_chaining/build.cpp"]}
{"id": "C109", "title": "Scripts with several toolchains, any of them turned on, always give correct builds", "statement": "Take a script that makes file generators and then, for each of any number of toolchains, targets, dependencies and tests under Reg::Toolchain(state), where the user has turned any of the toolchains on or off. If the text for each toolchain that is on keeps to the rules of C108 and these toolchains have different plain names, then Reg accepts its calls, only the targets of toolchains that are on are built, and however the script was run, killed and run again with files edited and deleted in between, after a successful Reg::Run every target for every one of these toolchains is what a build from scratch would leave, every generator was last run with the present versions of its inputs, and every target is linked with the present versions of its libraries: targets for different toolchains with the same name never disturb each other. The scripts in example/hybrid keep to the rules with any toolchains in any states.", "quantifier": "every such text, every number of toolchains and every choice of those that are on, every place, every iteration order of hash sets, and every history of edits, builds, failures and kills", "why_tests_cant": "Targets for different toolchains run at the same time and share sources and generated files; a clash of their files or a missing dependency shows only in some schedules and histories.", "anchors": ["buildcc/lib/args/include/args/register.h Reg::ToolchainInstance", "buildcc/lib/args/src/register.cpp", "example/hybrid/dep_chaining/build.cpp", "example/hybrid/simple/build.cpp", "example/hybrid/generic/build.cpp"]}
{"id": "C110", "title": "Turning toolchains on and off between runs never gives a wrong build", "statement": "Run a script with several toolchains again and again, each time with another choice of the toolchains that are on, with files edited and deleted in between, failures and kills. Whenever Reg::Run returns with success, every target for every toolchain that is on in this run is what a build from scratch would leave, whatever happened while its toolchain was off; every generator was last run with the present versions of its inputs; and every target is linked with the present versions of its libraries.", "quantifier": "every script whose text keeps to the rules of C109, every sequence of choices of toolchains, and every history of edits, builds, failures and kills", "why_tests_cant": "The state that a target finds may be left by a run any number of runs ago, killed at any point, while shared sources and generated files went on changing in runs for other toolchains.", "anchors": ["buildcc/lib/args/include/args/register.h Reg::ToolchainInstance::Build, Dep, Test", "buildcc/lib/args/include/args/args.h ArgToolchainState", "buildcc/lib/target/src/target/build.cpp", "example/hybrid/dep_chaining/build.cpp"]}
{"id": "C111", "title": "What a script builds does not depend on the toolchains that are on", "statement": "Run a script with several toolchains again and again, each time with another choice of the toolchains that are on, with sources edited and deleted in between, failures and kills; nobody edits or deletes by hand what the script makes. Whenever Reg::Run returns with success, the contents of every target for every toolchain that is on, and of every generated file, are those that a build from scratch of the whole script, with all its toolchains, makes of the present sources. With tools that do not depend on the order of the sources on their command line, two such histories that end with the same sources leave the same contents in every file that both make, whatever toolchains were on in either.", "quantifier": "every script whose text keeps to the rules of C109, every sequence of choices of toolchains, every history of edits, builds, failures and kills, and every behaviour of the tools that is a function of what they read", "why_tests_cant": "The histories, the choices of toolchains and the tools are unbounded, and which of the files are left over from earlier runs depends on all of them.", "anchors": ["buildcc/lib/args/include/args/register.h Reg::ToolchainInstance::Build, Dep", "buildcc/lib/args/include/args/args.h ArgToolchainState", "buildcc/lib/target/src/target/build.cpp", "buildcc/lib/target/src/generator/file_generator.cpp", "example/hybrid/dep_chaining/build.cpp"]}
{"id": "C112", "title": "Scripts may be edited between runs", "statement": "Edit the text of a build script between its runs: add and remove targets, generators, sources, flags, libraries, generated sources, dependencies and toolchains, with the files edited and deleted in between, failures and kills. Whenever Reg::Run of the present edition returns with success, every target is up to date with its present configuration and files, every generator has run with its present commands and inputs, and every program is linked with the present libraries. The contents of all that it makes are those that a build from scratch of the present edition makes of the present sources, whatever editions were built before: with tools that do not depend on the order of the sources on their command line, they are those of a fresh checkout.", "quantifier": "every list of editions of a script that each keep to the rules of C109 and do not change the toolchains or the type and directory of a target, every history of edits, builds, failures and kills in which a killed builder is run to its end before it is configured otherwise, and every behaviour of the tools that is a function of what they read", "why_tests_cant": "The texts, the order in which they are run and the histories are unbounded, and what is left over in the build directory depends on all of them.", "anchors": ["buildcc/lib/args/include/args/register.h Reg::ToolchainInstance::Build, Dep", "buildcc/lib/target/src/target/build.cpp", "buildcc/lib/target/src/generator/file_generator.cpp", "example/hybrid/dep_chaining/build.cpp"]}
{"id": "C113", "title": "Running a script again does only what changed files make necessary", "statement": "Run a script with generators and several toolchains, with any of the toolchains on, and let the build succeed. Running it again with any of these toolchains, any number of times and with kills at any point, runs no command, changes no file and never fails as long as no file is changed from outside. After files were edited or deleted a generator runs only if one of its own inputs changed, and a target runs a command only if a file changed that is read by itself, by a target for the same toolchain on which it depends, or by a generator on which it depends; a source is compiled only if it, a header or a file on which all sources depend changed. Builds for other toolchains in between make no difference to this.", "quantifier": "every script whose text keeps to the rules of C109, every choice of toolchains in each run, every history before, every interleaving of each build and every set of files changed in between", "why_tests_cant": "The scripts, the histories, the interleavings and the sets of changed files are unbounded; a test sees only that one build in one of them did nothing too much.", "anchors": ["buildcc/lib/args/include/args/register.h Reg::ToolchainInstance::Build, Dep", "buildcc/lib/target/src/target/build.cpp", "buildcc/lib/target/src/target/tasks.cpp", "buildcc/lib/target/src/generator/file_generator.cpp", "buildcc/lib/target/src/custom_generator/custom_generator.cpp", "example/hybrid/dep_chaining/build.cpp"]}
{"id": "C114", "title": "A build succeeds exactly when its commands do and its files exist", "statement": "A build that has come to its end has succeeded if and only if no command, callback or storing of a state failed and every file exists that a builder of the script reads. If the files given to a script exist, nothing that an earlier run of it has made was deleted, commands and callbacks succeed without removing files, and callbacks write their outputs, then the build succeeds whatever the schedule: libraries and generated files need not exist before, and no schedule lets a builder look for them too early. A build can always come to its end. If instead a file is deleted that one builder made and another one reads, then every later build fails without a failing command, and the file is not made again.", "quantifier": "every history before, every script, every interleaving of the build, every state of the files", "why_tests_cant": "A test sees the result of one schedule in one state of the files; a builder that looks for a file before its maker has run shows only in some schedules, and the histories are unbounded.", "anchors": ["buildcc/lib/args/src/register.cpp", "buildcc/lib/target/src/target/build.cpp", "buildcc/lib/target/src/target/tasks.cpp", "buildcc/lib/target/src/target/friend/link_target.cpp", "buildcc/lib/target/src/custom_generator/custom_generator.cpp", "buildcc/schema/include/schema/path.h PathInfoList::ComputeHashForAll"]}
{"id": "C115", "title": "The schedule of a build does not matter", "statement": "Start the same script twice from the same state of the files and the same stored states, and let the executor schedule the tasks in different ways. If commands and callbacks succeed or fail, and write their files, in the same way in both builds, then both builds succeed or both fail, provided that the states can be stored. If one of them succeeds, then in the other no command fails and at no moment is a command executed that the successful build does not execute. If both succeed, then they execute the same commands and callbacks and leave the same files: every file is either the same version in both or newly written in both. In builds that fail, which commands are executed does depend on the schedule.", "quantifier": "every history before, every script, every pair of interleavings of its tasks, every behaviour of the commands that is a function of the builder and the command", "why_tests_cant": "The number of interleavings grows exponentially with the script and a test observes the few that the executor happens to choose; a comparison of pairs of executions is not visible in either of them alone.", "anchors": ["buildcc/lib/args/src/register.cpp", "buildcc/lib/target/src/target/build.cpp", "buildcc/lib/target/src/target/tasks.cpp", "buildcc/lib/target/src/target/friend/compile_object.cpp", "buildcc/lib/target/src/target/friend/link_target.cpp", "buildcc/lib/target/src/custom_generator/custom_generator.cpp"]}
{"id": "C116", "title": "On Windows the compiler and the linker get the arguments that the script describes", "statement": "By the rules by which programs on Windows split a command into arguments (spaces and tabs outside of quotes; backslashes are special only before a quote), the compile, precompiled header and link commands of every shipped MSVC, GCC and MinGW target start the configured tool with exactly the described arguments in the described order. A path that buildcc formats, with an option such as /Fo or /OUT: before it or an extension behind it, is exactly one argument with exactly that path, if and only if it is not a path with a space that ends with a backslash; the tool itself may be any path. The same holds for tests, commands of generators and the script that buildexe runs. This is false for spaces in sources and include directories: these are not quoted, and no argument contains them.", "quantifier": "every shipped target of the three toolchains, set of flags, directories, libraries, sources, objects, and every path without quotes and tabs", "why_tests_cant": "The number of backslashes before a quote decides what the quote means, so the result depends on every character of every flag and path.", "anchors": ["buildcc/lib/env/src/execute.cpp Command::Execute", "buildcc/schema/include/schema/path.h ToPathDisplayString", "buildcc/targets/include/targets/target_msvc.h", "buildcc/targets/include/targets/target_mingw.h", "buildcc/lib/target/src/target/friend/compile_object.cpp CacheCompileCommands", "buildcc/lib/target/src/target/friend/compile_pch.cpp BuildCompile", "buildcc/lib/target/src/target/friend/link_target.cpp BuildLink"]}
{"id": "C117", "title": "Files that a script neither names nor writes do not matter", "statement": "Take any history of builds: scripts are run, builds fail or are killed at any point, state files are deleted, and files are edited and deleted at any moment, also while commands run. Leave out all changes of files that none of the scripts names as an input and that none of its builders may write. Then every builder has executed the same commands with the same results, has the same state file and has left the same artifacts, every other file is the same, and Reg::Run has ended alike. So the guarantees about a successful build (everything is what a build from scratch would leave) hold also when unrelated files are changed during the build. The other side of it: a header that the script does not name is never noticed.", "quantifier": "every number of targets and generators, every script, every history, schedule, failure and crash point, and every set of files that has the files of the scripts in it", "why_tests_cant": "That something has no influence is a statement about pairs of histories of any length; a test compares two of them.", "anchors": ["buildcc/lib/target/src/target/friend/compile_object.cpp PreObjectCompile, BuildObjectCompile", "buildcc/lib/target/src/target/tasks.cpp", "buildcc/lib/target/src/target/recheck_states.cpp", "buildcc/lib/target/src/custom_generator/custom_generator.cpp GenerateTask", "buildcc/schema/include/schema/path.h PathInfoList::ComputeHashForAll", "buildcc/lib/args/src/register.cpp Reg::Run"]}
{"id": "C118", "title": "Paths on Windows", "statement": "On Windows a path is stored in one way, with backslashes, whichever separators it is written with and however often . or name/.. or repeated separators occur in it, and what has been stored is stored as it is. Every object of a target is inside of its build directory. Two sources on the drive of the target's root directory share an object exactly if they have the same file name and the same directory as seen from the root directory, so sources below the root directory do not. A path in a command is one argument. This is false for sources on another drive, or on the same drive written with the other case: all of those with the same file name share one object. It is false for a directory with a space that is written with a final separator: the quote that ends it is taken for a part of the path.", "quantifier": "all paths with or without a drive, all root and build directories, extensions and sources", "why_tests_cant": "Paths are arbitrary texts; the tests run on the separators and drives of one machine.", "anchors": ["buildcc/schema/include/schema/path.h ToPathString, ToPathDisplayString", "buildcc/lib/target/src/target/friend/compile_object.cpp ConstructObjectPath"]}
{"id": "C119", "title": "What a script is told about its host", "statement": "get_host_os, the separator of PATH and the extension of programs are decided by the predefined macros of the compiler: the separator and the extension are known exactly if the operating system is, and are those of Windows exactly on Windows. The bootstrap script compiles the implementation of processes for the host and adds the flags that the toolchain needs. get_host_os never returns Linux with GCC or Clang on Linux, but Unix. The bootstrap script compiles two implementations with Clang on Windows and none with GCC on macOS.", "quantifier": "all sets of predefined macros and all toolchains", "why_tests_cant": "A test runs on one host and compiler; the tests compare the functions with the same macros.", "anchors": ["buildcc/lib/env/include/env/host_os.h get_host_os", "buildcc/lib/env/include/env/host_os_util.h get_os_envvar_delim, get_os_executable_extension", "buildcc/lib/env/include/env/host_compiler.h", "bootstrap/src/build_tpl.cpp tpl_cb", "bootstrap/src/build_buildcc.cpp buildcc_cb"]}
{"id": "C120", "title": "Objects that are registered are used only while they live", "statement": "Targets refer to their toolchain, generators to the data of their blob handlers, plugins and tests to targets, and what is registered is read by Reg::Run. A script uses no object outside of its lifetime if and only if each object that is read, by a call at once or by the tasks and tests of the run, is a local object of a function that has not ended or is in a Storage that has not been cleared. So a script that keeps its objects in main or in Storage is safe whatever it registers, and so is the end of the program; objects from which a target has taken something may be gone before the run; a target or blob data local to a callback is read after its end, undefined behaviour, and with Storage::Add it is not.", "quantifier": "every sequence of function begins and ends, creations, calls, registrations and runs", "why_tests_cant": "Reading a destroyed object mostly works in a test; which objects are read by tasks later depends on all references made before.", "anchors": ["buildcc/lib/target/include/target/target_info.h toolchain_", "buildcc/lib/target/include/target/custom_generator/custom_blob_handler.h TypedCustomBlobHandler", "buildcc/lib/args/include/args/register.h Reg::Instance::Build", "buildcc/lib/args/src/register.cpp Reg::Run, Test", "buildcc/plugins/include/plugins/clang_compile_commands.h", "buildcc/lib/env/include/env/storage.h"]}
{"id": "C121", "title": "Files of targets where the case of file names does not count", "statement": "Where file names that differ only in the case of letters are the same file, as on Windows and macOS, two targets whose build directories have a file in common have the same toolchain and target names apart from the case of letters, and they share their state exactly then. Two sources of a target have the same object exactly if their file names and their directories as seen from the root directory are the same apart from case, so two sources inside of the root directory that have the same object are the same file. It is false that different targets do not share files: targets whose names differ only in case are different for the registry and share their state and their output.", "quantifier": "all build and root directories, plain names, extensions and sources", "why_tests_cant": "The claim is about all pairs of names and paths, on file systems that the tests do not run on.", "anchors": ["buildcc/lib/target/include/target/target.h Target", "buildcc/lib/target/src/target/target.cpp Target::Initialize", "buildcc/lib/target/src/target/friend/compile_object.cpp ConstructObjectPath", "buildcc/lib/target/src/target/friend/link_target.cpp ConstructOutputPath", "buildcc/schema/include/schema/path.h"]}
{"id": "C122", "title": "Files of generators", "statement": "A generator works in the directory of its name in the build directory. Two generators with plain names whose directories have a file in common have the same name, and they share their state file exactly then; where the case of letters does not count, the same holds apart from case. If the directories of a generator and of a target have a file in common, the generator has the name of the toolchain. The state file of a generator is never the state file or the output of a target, and it is the directory of a target exactly if the toolchain has the name of the generator and the target that name with .json. It is false that a generator and a target never share files: a generator with the name of a toolchain has the directories of all targets of the toolchain in its own.", "quantifier": "all build directories, plain names of generators, toolchains and targets, extensions and texts below the directories", "why_tests_cant": "The claim is about all pairs of names; a test tries a few.", "anchors": ["buildcc/lib/target/include/target/custom_generator.h CustomGenerator", "buildcc/lib/target/include/target/target.h Target", "buildcc/lib/target/src/target/friend/link_target.cpp ConstructOutputPath"]}
{"id": "C123", "title": "The files of one target are different files", "statement": "A target writes into its build directory its state, its output, the header, source, compiled form and object of the precompiled header, and an object for each source. With the extensions of the shipped toolchains two of these files are the same exactly if their names below the build directory are the same: NAME.bin, NAME with the extension of the output, buildcc_pch.h, buildcc_pch.cpp or buildcc_pch.c, the compiled header, buildcc_pch with the extension of objects, and the path of the source with that extension. So all files of a library and of an executable for Windows are different, whatever the name of the target is. For an executable without an extension two files are the same exactly if the target has the name of one of the others, such as main.cpp.o with a source main.cpp: nothing refuses this, and linking replaces the object.", "quantifier": "all names of targets, build and root directories, and sources inside of the root directory", "why_tests_cant": "The claim is about all names and sources; a test tries a few.", "anchors": ["buildcc/lib/target/include/target/target.h Target", "buildcc/lib/target/src/target/friend/link_target.cpp ConstructOutputPath", "buildcc/lib/target/src/target/friend/compile_pch.cpp ConstructHeaderPath, ConstructCompilePath, ConstructSourcePath, ConstructObjectPath", "buildcc/lib/target/src/target/friend/compile_object.cpp ConstructObjectPath"]}
