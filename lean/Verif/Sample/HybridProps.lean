import Verif.Sample.Hybrid
import Verif.Boot.Examples
import Verif.Generator.FileApiProps

/-! # What the scripts in `example/hybrid` track (C106, C107), and an example -/

namespace Verif.Sample
open Verif Verif.Schema Verif.Target Verif.Toolchain Verif.Path
open Verif.Boot (Filled fill_some texts texts_append texts_paths made_none)

/-- The parts of a script with two targets that came to its end. -/
theorem run_two {junk : Nat → TargetSchema} {p : Project} {list : Str → Option (List Str)}
    {tc : Toolchain} {d1 d2 : Decl} {e : List (Nat × Nat)} {t : List Nat} {fs : List Filled}
    (h : Text.run junk p list tc ⟨[], [d1, d2], e, t⟩ = some fs) : ∃ a b, fs = [a, b] ∧
      (∀ o, (∀ op ∈ d1.steps.map (Step.op [] []), ¬ Copies o op) → (∀ k : FlagKind, o ≠ k.option) →
        entries o a.cfg = (d1.steps.map (Step.op [] [])).flatMap
          (added ⟨tc.config, append p.rootDir d1.dir, list⟩ o)) ∧
      ∀ o, (∀ op ∈ d2.steps.map (Step.op [] [a]), ¬ Copies o op) → (∀ k : FlagKind, o ≠ k.option) →
        entries o b.cfg = (d2.steps.map (Step.op [] [a])).flatMap
          (added ⟨tc.config, append p.rootDir d2.dir, list⟩ o) := by
  rw [Text.run] at h
  simp only [runInfos, runTargets] at h
  split at h
  · cases h
  · rename_i m1 hm1
    split at h
    · cases h
    · rename_i a ha
      split at h
      · cases h
      · rename_i m2 hm2
        split at h
        · cases h
        · rename_i b hb
          cases h
          obtain ⟨rfl, h1⟩ := fill_some ha
          obtain ⟨rfl, h2⟩ := fill_some hb
          obtain ⟨-, -, c1, r1, -⟩ := C70_made hm1
          obtain ⟨-, -, c2, r2, -⟩ := C70_made hm2
          rw [c1, r1] at h1
          rw [c2, r2] at h2
          refine ⟨a, b, rfl, fun o hc ho => ?_, fun o hc ho => ?_⟩
          · rw [(C67_inputs h1).2 o hc, made_none hm1 o ho]; rfl
          · rw [(C67_inputs h2).2 o hc, made_none hm2 o ho]; rfl

/-- C107: the script `example/hybrid/generic`, wherever it runs.  The compiler finds the headers of
`foolib/src` when it compiles `main.cpp` of the program, and `main.cpp` includes `foo.h`
(`generic/src/main.cpp:3`).  The program tracks `main.cpp` and the library, and no header: after a change
of `foo.h` its object file is not compiled again.  (`Insert` takes the include directories and not the
headers.) -/
theorem C107_generic_false {junk : Nat → TargetSchema} {p : Project} {list : Str → Option (List Str)}
    {tc : Toolchain} {type : TargetType} {fs : List Filled}
    (h : (generic type).run junk p list tc = some fs) :
    ∃ lib prog, fs = [lib, prog] ∧
      prog.cfg.includeDirs = [toPathString (append (append p.rootDir b!"../foolib") b!"src")] ∧
      paths prog.cfg.sources = [toPathString (append (append (append p.rootDir b!"src") []) b!"main.cpp")] ∧
      paths prog.cfg.libs = [toPathString (outputPath lib.made.fixed)] ∧
      prog.cfg.headers = [] ∧ prog.cfg.pchs = [] ∧ prog.cfg.compileDeps = [] ∧ prog.cfg.linkDeps = [] := by
  obtain ⟨lib, prog, rfl, e1, e2⟩ := run_two h
  have nk : ∀ o ∈ [SyncOption.sources, .headers, .pchs, .libs, .compileDeps, .linkDeps, .includeDirs],
      ∀ k : FlagKind, o ≠ k.option := by
    intro o ho k; cases k <;> simp only [FlagKind.option] <;> rintro rfl <;> simp at ho
  have e1' := fun o => e1 o (by simp [fooOps, Step.op, Copies])
  have e2' := fun o => e2 o (by simp [Step.op, Copies])
  have i1 : entries .includeDirs lib.cfg =
      [storedDir (append (append p.rootDir b!"../foolib") b!"src")] := by
    rw [e1' _ (nk _ (by simp))]
    simp [fooOps, Step.op, added, addsTo]
  have none : ∀ {l : List PathInfo}, l.map (Sum.inl (β := Str)) = [] → l = [] := by simp
  refine ⟨lib, prog, rfl, ?_, ?_, ?_, ?_, ?_, ?_, ?_⟩
  · rw [← texts_includes, e2' _ (nk _ (by simp))]
    simp [Step.op, added, addsTo, texts, i1, storedDir]
  · rw [← (texts_paths _).1, e2' _ (nk _ (by simp))]
    simp [Step.op, added, addsTo, texts, stored]
  · rw [← (texts_paths _).2.2.2.1, e2' _ (nk _ (by simp))]
    simp [Step.op, added, addsTo, texts, stored]
  · exact none ((e2' .headers (nk _ (by simp))).trans (by simp [Step.op, added, addsTo]))
  · exact none ((e2' .pchs (nk _ (by simp))).trans (by simp [Step.op, added, addsTo]))
  · exact none ((e2' .compileDeps (nk _ (by simp))).trans (by simp [Step.op, added, addsTo]))
  · exact none ((e2' .linkDeps (nk _ (by simp))).trans (by simp [Step.op, added, addsTo]))

/-- C107: the programs of `example/gcc/StaticLib` and `example/gcc/DynamicLib` include `random.h`
(`files/src/main.cpp:3`), which the compiler finds in `files/include`, and do not track it. -/
theorem C107_library_false {junk : Nat → TargetSchema} {p : Project} {list : Str → Option (List Str)}
    {tc : Toolchain} {type : TargetType} {name : Str} {fs : List Filled}
    (h : (libExample type name).run junk p list tc = some fs) :
    ∃ lib prog, fs = [lib, prog] ∧
      paths lib.cfg.headers =
        [toPathString (append (append (append p.rootDir b!"files") []) b!"include/random.h")] ∧
      prog.cfg.includeDirs = [toPathString (append (append p.rootDir b!"files") b!"include")] ∧
      paths prog.cfg.sources =
        [toPathString (append (append (append p.rootDir b!"files") b!"src") b!"main.cpp")] ∧
      prog.cfg.headers = [] ∧ prog.cfg.pchs = [] ∧ prog.cfg.compileDeps = [] := by
  obtain ⟨lib, prog, rfl, e1, e2⟩ := run_two h
  have nk : ∀ o ∈ [SyncOption.sources, .headers, .pchs, .compileDeps, .includeDirs],
      ∀ k : FlagKind, o ≠ k.option := by
    intro o ho k; cases k <;> simp only [FlagKind.option] <;> rintro rfl <;> simp at ho
  have e1' := fun o => e1 o (by simp [Step.op, Copies])
  have e2' := fun o => e2 o (by simp [Step.op, Copies])
  have none : ∀ {l : List PathInfo}, l.map (Sum.inl (β := Str)) = [] → l = [] := by simp
  refine ⟨lib, prog, rfl, ?_, ?_, ?_, ?_, ?_, ?_⟩
  · rw [← (texts_paths _).2.1, e1' _ (nk _ (by simp))]
    simp [Step.op, added, addsTo, texts, stored]
  · rw [← texts_includes, e2' _ (nk _ (by simp))]
    simp [Step.op, added, addsTo, texts, storedDir]
  · rw [← (texts_paths _).1, e2' _ (nk _ (by simp))]
    simp [Step.op, added, addsTo, texts, stored]
  · exact none ((e2' .headers (nk _ (by simp))).trans (by simp [Step.op, added, addsTo]))
  · exact none ((e2' .pchs (nk _ (by simp))).trans (by simp [Step.op, added, addsTo]))
  · exact none ((e2' .compileDeps (nk _ (by simp))).trans (by simp [Step.op, added, addsTo]))

/-- C107: the second target of `example/hybrid/pch` does not glob its include directory, but names the
header that its source includes (`files/src/main.c:1`). -/
theorem C107_pch {junk : Nat → TargetSchema} {p : Project} {list : Str → Option (List Str)}
    {tc : Toolchain} {id : ToolchainId} {fs : List Filled} (h : (pch id).run junk p list tc = some fs) :
    ∃ cpp c, fs = [cpp, c] ∧ Covered list tc cpp.cfg ∧
      c.cfg.includeDirs = [toPathString (append (append p.rootDir b!"files") b!"pch")] ∧
      paths c.cfg.headers =
        [toPathString (append (append (append p.rootDir b!"files") []) b!"pch/pch_c.h")] ∧
      paths c.cfg.pchs = paths c.cfg.headers := by
  obtain ⟨cpp, c, rfl, e1, e2⟩ := run_two h
  have nk : ∀ o ∈ [SyncOption.headers, .pchs, .includeDirs], ∀ k : FlagKind, o ≠ k.option := by
    intro o ho k; cases k <;> simp only [FlagKind.option] <;> rintro rfl <;> simp at ho
  have e2' := fun o => e2 o (by cases id <;> simp [sampleFlags, Step.op, Copies])
  have hh : paths c.cfg.headers =
      [toPathString (append (append (append p.rootDir b!"files") []) b!"pch/pch_c.h")] := by
    rw [← (texts_paths _).2.1, e2' _ (nk _ (by simp))]
    cases id <;> simp [Step.op, sampleFlags, added, addsTo, texts, stored, FlagKind.option]
  refine ⟨cpp, c, rfl, ?_, ?_, hh, ?_⟩
  · refine C107_covered (junk := junk) (p := p) (s := ⟨[], [(pch id).targets[0]'(by simp [pch])], [], []⟩)
      (fs := [cpp]) ?_ ?_ cpp (by simp)
    · rw [Text.run, pch] at h
      simp only [runInfos, runTargets] at h
      simp only [Text.run, runInfos, runTargets, pch, List.getElem_cons_zero]
      split at h
      · cases h
      · split at h
        · cases h
        · split at h
          · cases h
          · split at h
            · cases h
            · simp at h
              simp_all
    · cases id <;> decide +kernel
  · rw [← texts_includes, e2' _ (nk _ (by simp))]
    cases id <;> simp [Step.op, sampleFlags, added, addsTo, texts, storedDir, FlagKind.option]
  · rw [hh, ← (texts_paths _).2.2.1, e2' _ (nk _ (by simp))]
    cases id <;> simp [Step.op, sampleFlags, added, addsTo, texts, stored, FlagKind.option]

/-- `example/hybrid/dep_chaining/build.cpp:99-115`, for `cpp` and for `c`. -/
def depChaining (lang : Str) : List Generator.FileOp :=
  [.addPattern (b!"main_" ++ lang) (b!"{current_build_dir}/main." ++ lang),
   .addOutput (b!"{main_" ++ lang ++ b!"}"),
   .addCommand (b!"python3 {current_root_dir}/python/gen.py --source_type " ++ lang ++
     b!" --destination {main_" ++ lang ++ b!"}") []]

/-- C107: the generators of `example/hybrid/dep_chaining`, wherever the script runs, have no inputs.  So a
change of `python/gen.py`, which writes the sources of the targets, generates nothing. -/
theorem C107_generated_false {dirs : List Str} {lang : Str} {g : Generator.FileGen} {ins outs : List Str}
    {c : Generator.Cfg} (h : Generator.fileApplyAll (Generator.newFileGen dirs) (depChaining lang) = some g)
    (hi : ins.Perm g.inputs) (ho : outs.Perm g.outputs) (hb : g.build ins outs = some c) :
    ∃ o blob, c = [(b!"Generate", ⟨[], o, blob⟩)] := by
  obtain ⟨i, o, commands, all, hc, -, -, h1, h2, -⟩ := Generator.C72_built h hi ho hb
  have hn : ins = [] := by
    cases ins with
    | nil => rfl
    | cons x l =>
      have := (h1.2 x).1 (List.mem_cons_self ..)
      simp [depChaining, Generator.inputPatterns] at this
  subst hn
  cases i with
  | nil => exact ⟨o, _, hc⟩
  | cons x l => exact absurd h2 id

/-! ## An example -/

def exChaining : Generator.FileGen :=
  (Generator.fileApplyAll (Generator.newFileGen [b!"/r", b!"/r/_build", b!"/r", b!"/r/_build/cpp_generator"])
    (depChaining b!"cpp")).getD (Generator.newFileGen [])

example : exChaining.commands =
      [b!"python3 /r/python/gen.py --source_type cpp --destination /r/_build/cpp_generator/main.cpp"] ∧
    (exChaining.build exChaining.inputs exChaining.outputs).map (·.map fun x => x.2.outputs) =
      some [[b!"/r/_build/cpp_generator/main.cpp"]] := by
  decide +kernel

example : ((libExample .staticLibrary b!"statictest").run (fun _ => TargetSchema.empty)
      ⟨true, b!"/r", b!"/r/_build"⟩ (fun _ => none) exGcc).map
      (·.map fun f => (f.cfg.includeDirs, paths f.cfg.headers)) =
    some [([b!"/r/files/include"], [b!"/r/files/include/random.h"]), ([b!"/r/files/include"], [])] := by
  decide +kernel

example : ((pch .gcc).run (fun _ => TargetSchema.empty) ⟨true, b!"/r", b!"/r/_build"⟩
      (fun d => if d = b!"/r/files/include" then some [b!"random.h"]
        else if d = b!"/r/files/pch" then some [b!"pch_c.h", b!"pch_cpp.h"] else none) exGcc).map
      (·.map fun f => (paths f.cfg.pchs, paths f.cfg.headers)) =
    some [([b!"/r/files/pch/pch_cpp.h", b!"/r/files/pch/pch_c.h"],
        [b!"/r/files/include/random.h", b!"/r/files/pch/pch_c.h", b!"/r/files/pch/pch_cpp.h"]),
      ([b!"/r/files/pch/pch_c.h"], [b!"/r/files/pch/pch_c.h"])] := by
  decide +kernel

example : (targetInfo.run (fun _ => TargetSchema.empty) ⟨true, b!"/r", b!"/r/_build"⟩
      (fun d => if d = b!"/r/files/include" then some [b!"generic_add.h", b!"generic_vector2.h"] else none)
      exGcc).map (·.map fun f => (paths f.cfg.sources, paths f.cfg.headers)) =
    some [([b!"/r/files/src/main1.cpp"],
        [b!"/r/files/include/generic_add.h", b!"/r/files/include/generic_vector2.h"]),
      ([b!"/r/files/src/main2.cpp"],
        [b!"/r/files/include/generic_add.h", b!"/r/files/include/generic_vector2.h"])] := by
  decide +kernel


/-- `example/hybrid/generic` in a checkout. -/
def exHere : Project := ⟨true, b!"/r/generic", b!"/r/generic/_build"⟩

def exDirs (d : Str) : Option (List Str) :=
  if toPathString d = b!"/r/foolib/src" then some [b!"foo.cpp", b!"foo.h"] else none

def exGeneric : List Filled :=
  ((generic .staticLibrary).run (fun _ => TargetSchema.empty) exHere exDirs exGcc).getD []

theorem exGeneric_run : (generic .staticLibrary).run (fun _ => TargetSchema.empty) exHere exDirs exGcc =
    some exGeneric := by
  have : ((generic .staticLibrary).run (fun _ => TargetSchema.empty) exHere exDirs exGcc).isSome = true := by
    decide +kernel
  obtain ⟨x, hx⟩ := Option.isSome_iff_exists.1 this
  rw [exGeneric, hx, Option.getD_some]

theorem exHere_place : Place exHere exGcc where
  build := by decide
  name := by decide
  exts := ⟨⟨b!"o", by decide +kernel⟩, ⟨b!"h", by decide +kernel⟩, ⟨b!"gch", by decide +kernel⟩⟩

example : exGeneric.map (fun f => (paths f.cfg.sources, paths f.cfg.headers, paths f.cfg.libs)) =
    [([b!"/r/foolib/src/foo.cpp"], [b!"/r/foolib/src/foo.h"], []),
     ([b!"/r/generic/src/main.cpp"], [], [b!"/r/generic/_build/gcc/libfoo/libfoo.a"])] := by
  decide +kernel

def exOrder (name : Str) : List Str :=
  if name = b!"libfoo" then [b!"/r/foolib/src/foo.cpp"] else [b!"/r/generic/src/main.cpp"]

/-- A first build; then `foo.h` is edited.  The library is built again, and the program is linked again
with the object file of the first build. -/
def exGenericHistory : List Reg.WEvent :=
  [.edit b!"/r/foolib/src/foo.cpp" 1, .edit b!"/r/foolib/src/foo.h" 1, .edit b!"/r/generic/src/main.cpp" 1,
    .launch ((generic .staticLibrary).graph exGcc true) (Reg.setupOf (scriptTargets exGeneric exOrder))] ++
  Reg.exTargetTasks b!"[gcc] libfoo" b!"/r/generic/_build/gcc/libfoo/libfoo.a" 2 ++
  Reg.exTargetTasks b!"[gcc] generic" b!"/r/generic/_build/gcc/generic/generic" 3 ++
  [.join, .edit b!"/r/foolib/src/foo.h" 4,
    .launch ((generic .staticLibrary).graph exGcc true) (Reg.setupOf (scriptTargets exGeneric exOrder))] ++
  Reg.exTargetTasks b!"[gcc] libfoo" b!"/r/generic/_build/gcc/libfoo/libfoo.a" 5 ++
  [.begin b!"[gcc] generic", .task b!"[gcc] generic" (.t .objTask) [],
    .task b!"[gcc] generic" (.t .linkTask) [],
    .task b!"[gcc] generic" (.t (.linkExec true none)) [(b!"/r/generic/_build/gcc/generic/generic", some 6)],
    .task b!"[gcc] generic" (.t (.finish true)) []]

theorem exGenericHistory_script : Reg.AllOfScript ((generic .staticLibrary).graph exGcc true)
    (Reg.setupOf (scriptTargets exGeneric exOrder))
    (Reg.World.init (Reg.kindsOf (scriptTargets exGeneric exOrder))) exGenericHistory := by
  refine Reg.allOfScript_of _ ?_ (by decide +kernel)
  intro g' s' hm
  simp only [exGenericHistory, Reg.exTargetTasks, List.mem_append,
    List.mem_cons, List.not_mem_nil, reduceCtorEq, false_or, or_false,
    Reg.WEvent.launch.injEq] at hm
  rcases hm with ⟨rfl, rfl⟩ | ⟨rfl, rfl⟩ <;> exact ⟨rfl, fun j _ => Reg.SameSetup.refl _⟩

/-- The program is linked with the new library. -/
example : ∃ a b, exGeneric = [a, b] ∧
    Reg.LinkedWith (((Reg.World.init (Reg.kindsOf (scriptTargets exGeneric exOrder))).steps
        exGenericHistory).step .join) (targetId b!"gcc" a.made.name) (targetId b!"gcc" b.made.name)
      (outputPath a.made.fixed) := by
  obtain ⟨a, b, hab, -⟩ := C107_generic_false exGeneric_run
  refine ⟨a, b, hab, ?_⟩
  have hout : ∀ f ∈ exGeneric, ∀ q ∈ Reg.given f.cfg, (exHere.buildDir ++ [slash]).isPrefixOf q = false := by
    decide +kernel
  refine (C106_built exGeneric_run (C106_samples .gcc .staticLibrary).2.2.2.2.2.2.2 exHere_place
    (fun f hf q hq => Reg.notInside (by decide) (hout f hf q hq)) exOrder (clean := false) (c := ⟨true, true⟩) rfl rfl exGenericHistory_script
    (by decide +kernel) (by decide +kernel) (by decide +kernel)).2.2 0 1
    ⟨b!"generic", .executable, b!"src", [.call (.addSource b!"main.cpp" b!""), .libDep 0,
      .insert 0 [.includeDirs]]⟩ a b rfl (by simp) (by rw [hab]; rfl) (by rw [hab]; rfl) ?_
  have hout : outputPath a.made.fixed = b!"/r/generic/_build/gcc/libfoo/libfoo.a" := by
    have h2 : exGeneric[0]?.map (fun f => outputPath f.made.fixed) =
        some b!"/r/generic/_build/gcc/libfoo/libfoo.a" := by decide +kernel
    rw [hab] at h2
    simpa using h2
  rw [hout]
  intro e he
  refine ⟨fun t h => ?_, fun h => ?_⟩
  · subst h
    simp only [exGenericHistory, Reg.exTargetTasks, List.mem_append, List.mem_cons, List.not_mem_nil,
      reduceCtorEq, false_or, or_false, Reg.WEvent.edit.injEq] at he
    rcases he with (hh | hh | hh) | hh <;> exact absurd hh.1 (by decide +kernel)
  · subst h
    simp [exGenericHistory, Reg.exTargetTasks] at he

/-- `example/hybrid/simple` with its headers. -/
example : ((simple .gcc).run (fun _ => TargetSchema.empty) exHere
      (fun d => if d = b!"/r/generic/files/include" then some [b!"random.h", b!"notes.txt"] else none) exGcc).map
      (·.map fun f => (f.cfg.includeDirs, paths f.cfg.headers)) =
    some [([b!"/r/generic/files/include"], [b!"/r/generic/files/include/random.h"]), ([], [])] := by
  decide +kernel

end Verif.Sample
