import Verif.Reg.ProjectProps
import Verif.Reg.OneScriptExamples

/-! # A project with a library and a program -/

namespace Verif.Reg
open Verif Verif.Schema
open Verif.Target (paths Project Made targetGeneric exProject exGcc)
open Verif.Path (Inside PlainName)

theorem notInside {d p : Str} (h1 : d.getLast? ≠ some Path.slash)
    (h2 : (d ++ [Path.slash]).isPrefixOf p = false) : ¬ Inside d p := by
  rintro ⟨t, ht | ht, -⟩
  · rw [ht] at h2
    have : (d ++ [Path.slash]).isPrefixOf (d ++ Path.slash :: t) = true := by
      rw [List.isPrefixOf_iff_prefix]
      exact ⟨t, by simp⟩
    rw [this] at h2; exact Bool.noConfusion h2
  · exact h1 ht.1

def exNoMade : Made :=
  ⟨[], .executable, exGcc, [], [], Target.gccExe, TargetSchema.empty⟩

/-- A static library in `/r/lib`. -/
def exLib : ScriptTarget :=
  let m := (targetGeneric (fun _ => TargetSchema.empty) exProject b!"lib" .staticLibrary exGcc
    ⟨b!"/r/lib", b!"/b"⟩).getD exNoMade
  ⟨m, { m.info with sources := [⟨b!"/r/lib/a.cpp", []⟩], headers := [⟨b!"/r/lib/a.h", []⟩] },
    [b!"/r/lib/a.cpp"]⟩

/-- A program in `/r` that is linked with it. -/
def exApp : ScriptTarget :=
  let m := (targetGeneric (fun _ => TargetSchema.empty) exProject b!"app" .executable exGcc
    ⟨b!"/r", b!"/b"⟩).getD exNoMade
  ⟨m, { m.info with sources := [⟨b!"/r/src/main.cpp", []⟩], libs := [⟨exLib.output, []⟩] },
    [b!"/r/src/main.cpp"]⟩

def exProjectCalls : List Call :=
  let c : Condition := ⟨true, false⟩
  [.func c 0, .build c exLib.id, .func c 1, .build c exApp.id, .dep c exApp.id exLib.id]

def exProjectScript : Script :=
  ⟨⟨[exLib.id, exApp.id], [(exLib.id, exApp.id)], []⟩, [0, 1]⟩

theorem exProjectScript_calls : calls 5 ⟨Graph.empty, []⟩ exProjectCalls = .ok exProjectScript := by decide +kernel

theorem exProjectScript_plain : PlainScript exProject [exLib, exApp] exProjectScript.graph.edges := by
  have two : ∀ {P : ScriptTarget → Prop}, P exLib → P exApp → ∀ t ∈ [exLib, exApp], P t := by
    intro P h1 h2 t ht
    simp only [List.mem_cons, List.not_mem_nil, or_false] at ht
    rcases ht with rfl | rfl
    · exact h1
    · exact h2
  refine ⟨by decide +kernel, two ?_ ?_, two ?_ ?_, two ?_ ?_, two ?_ ?_, two ?_ ?_,
    two ?_ ?_⟩
  · exact ⟨fun _ => TargetSchema.empty, b!"lib", .staticLibrary, exGcc, b!"/r/lib", by decide +kernel⟩
  · exact ⟨fun _ => TargetSchema.empty, b!"app", .executable, exGcc, b!"/r", by decide +kernel⟩
  · decide +kernel
  · decide +kernel
  · exact ⟨⟨b!"o", by decide +kernel⟩, ⟨b!"h", by decide +kernel⟩, ⟨b!"gch", by decide +kernel⟩⟩
  · exact ⟨⟨b!"o", by decide +kernel⟩, ⟨b!"h", by decide +kernel⟩, ⟨b!"gch", by decide +kernel⟩⟩
  · decide +kernel
  · decide +kernel
  · have : ∀ q ∈ given exLib.cfg, (exProject.buildDir ++ [Path.slash]).isPrefixOf q = false := by
      decide +kernel
    exact fun q hq => notInside (by decide) (this q hq)
  · have : ∀ q ∈ given exApp.cfg, (exProject.buildDir ++ [Path.slash]).isPrefixOf q = false := by
      decide +kernel
    exact fun q hq => notInside (by decide) (this q hq)
  · intro q hq
    have : paths exLib.cfg.libs = [] := by decide +kernel
    rw [this] at hq; simp at hq
  · intro q hq _
    have : paths exApp.cfg.libs = [exLib.output] := by decide +kernel
    rw [this, List.mem_singleton] at hq
    exact ⟨exLib, by simp, hq, .edge (by simp [exProjectScript])⟩

/-- A first build; then only the source of the library is edited. -/
def exProjectHistory : List WEvent :=
  [.edit b!"/r/lib/a.cpp" 1, .edit b!"/r/lib/a.h" 1, .edit b!"/r/src/main.cpp" 1,
    .launch exProjectScript.graph (setupOf [exLib, exApp])] ++
  exTargetTasks exLib.id exLib.output 3 ++ exTargetTasks exApp.id exApp.output 4 ++
  [.join, .edit b!"/r/lib/a.cpp" 5, .launch exProjectScript.graph (setupOf [exLib, exApp])] ++
  exTargetTasks exLib.id exLib.output 6 ++
  [.begin exApp.id, .task exApp.id (.t .objTask) [], .task exApp.id (.t .linkTask) [],
    .task exApp.id (.t (.linkExec true none)) [(exApp.output, some 7)],
    .task exApp.id (.t (.finish true)) []]

theorem exProjectHistory_script : AllOfScript exProjectScript.graph (setupOf [exLib, exApp])
    (World.init (kindsOf [exLib, exApp])) exProjectHistory := by
  refine allOfScript_of _ ?_ (by decide +kernel)
  intro g' s' hm
  simp only [exProjectHistory, exTargetTasks, List.mem_append,
    List.mem_cons, List.not_mem_nil, reduceCtorEq, false_or, or_false, WEvent.launch.injEq] at hm
  rcases hm with ⟨rfl, rfl⟩ | ⟨rfl, rfl⟩ <;> exact ⟨rfl, fun j _ => SameSetup.refl _⟩

/-- The second run of the example succeeds, and the program is linked with the new library. -/
example : LinkedWith (((World.init (kindsOf [exLib, exApp])).steps exProjectHistory).step .join)
    exLib.id exApp.id exLib.output := by
  refine (C84_project exProjectScript_calls (by decide +kernel) (by decide +kernel) exProjectScript_plain rfl
    exProjectHistory_script (by decide +kernel) (by decide +kernel) (by decide +kernel)).2 exLib (by simp) exApp (by simp)
    (by decide +kernel) ⟨by decide +kernel, by decide +kernel⟩ ?_
  intro e he
  refine ⟨fun t h => ?_, fun h => ?_⟩
  · subst h
    simp only [exProjectHistory, exTargetTasks, List.mem_append, List.mem_cons, List.not_mem_nil,
      reduceCtorEq, false_or, or_false, WEvent.edit.injEq] at he
    rcases he with (hh | hh | hh) | hh <;> exact absurd hh.1 (by decide +kernel)
  · subst h
    simp [exProjectHistory, exTargetTasks] at he

/-- The stamp of the library is that of the second build. -/
example : ((((World.init (kindsOf [exLib, exApp])).steps exProjectHistory).step .join).comps
    exApp.id).bin.map (·.libs) = some [(exLib.output, some b!"6")] := by decide +kernel

end Verif.Reg
