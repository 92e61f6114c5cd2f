import Verif.Reg.MixedProps
import Verif.Reg.ProjectExamples

/-! # A project with a generated source (C88) -/

namespace Verif.Reg
open Verif Verif.Schema
open Verif.Target (paths Project Made targetGeneric exGcc)
open Verif.Path (Inside PlainName)

def exMixedProject : Project := ⟨true, b!"/r", b!"/r/_b"⟩

def exMixedCommands : List Str := [b!"python3 /r/gen.py /r/v.in /r/_b/codegen/v.cpp"]

/-- A file generator that makes `v.cpp`. -/
def exCodegen : ScriptGen :=
  ⟨b!"codegen", (Generator.fileCfg [] [b!"/r/v.in", b!"/r/gen.py"] [b!"/r/_b/codegen/v.cpp"]
    exMixedCommands).getD []⟩

theorem exCodegen_cfg : Generator.fileCfg [] [b!"/r/v.in", b!"/r/gen.py"] [b!"/r/_b/codegen/v.cpp"]
    exMixedCommands = some exCodegen.cfg := by
  have : (Generator.fileCfg [] [b!"/r/v.in", b!"/r/gen.py"] [b!"/r/_b/codegen/v.cpp"]
    exMixedCommands).isSome = true := by decide +kernel
  obtain ⟨x, hx⟩ := Option.isSome_iff_exists.1 this
  rw [exCodegen, hx, Option.getD_some]

/-- A program with this source and another one. -/
def exMixedApp : ScriptTarget :=
  let m := (targetGeneric (fun _ => TargetSchema.empty) exMixedProject b!"app" .executable exGcc
    ⟨b!"/r", b!"/r/_b"⟩).getD exNoMade
  ⟨m, { m.info with sources := [⟨b!"/r/main.cpp", []⟩, ⟨b!"/r/_b/codegen/v.cpp", []⟩] },
    [b!"/r/main.cpp", b!"/r/_b/codegen/v.cpp"]⟩

def exMixedCalls : List Call :=
  let c : Condition := ⟨true, false⟩
  [.build c exCodegen.name, .build c exMixedApp.id, .dep c exMixedApp.id exCodegen.name]

def exMixedScript : Script :=
  ⟨⟨[exCodegen.name, exMixedApp.id], [(exCodegen.name, exMixedApp.id)], []⟩, []⟩

theorem exMixedScript_calls : calls 3 ⟨Graph.empty, []⟩ exMixedCalls = .ok exMixedScript := by
  decide +kernel

theorem exMixed_plain : PlainProject exMixedProject [exMixedApp] [exCodegen] exMixedScript.graph.edges := by
  have one : ∀ {P : ScriptTarget → Prop}, P exMixedApp → ∀ t ∈ [exMixedApp], P t := by
    intro P h t ht
    rw [List.mem_singleton.1 ht]; exact h
  have gen : ∀ {P : ScriptGen → Prop}, P exCodegen → ∀ t ∈ [exCodegen], P t := by
    intro P h t ht
    rw [List.mem_singleton.1 ht]; exact h
  have hdir : exMixedApp.made.buildDir = b!"/r/_b/gcc/app" := by decide +kernel
  have hout : ∀ q, (b!"/r/_b/gcc/app" ++ [Path.slash]).isPrefixOf q = false →
      ∀ d ∈ [exMixedApp], ¬ Inside d.made.buildDir q := by
    intro q hq
    refine one ?_
    rw [hdir]
    exact notInside (by decide) hq
  refine ⟨by decide +kernel, one ?_, one ?_, gen ?_, one ?_, one ?_, gen ?_, one ?_, gen ?_⟩
  · exact ⟨fun _ => TargetSchema.empty, b!"app", .executable, exGcc, b!"/r", by decide +kernel⟩
  · decide +kernel
  · decide +kernel
  · exact ⟨⟨b!"o", by decide +kernel⟩, ⟨b!"h", by decide +kernel⟩, ⟨b!"gch", by decide +kernel⟩⟩
  · decide +kernel
  · have : ∀ q ∈ exCodegen.outputs, (b!"/r/_b/gcc/app" ++ [Path.slash]).isPrefixOf q = false := by
      decide +kernel
    exact fun q hq => hout q (this q hq)
  · have : ∀ q ∈ given exMixedApp.cfg ++ paths exMixedApp.cfg.libs,
        (b!"/r/_b/gcc/app" ++ [Path.slash]).isPrefixOf q = false := by decide +kernel
    intro q hq
    exact ⟨fun d hd hi => absurd hi (hout q (this q hq) d hd),
      gen fun _ => .edge (by simp [exMixedScript])⟩
  · have : ∀ q ∈ exCodegen.inputs, (b!"/r/_b/gcc/app" ++ [Path.slash]).isPrefixOf q = false ∧
        q ∉ exCodegen.outputs := by decide +kernel
    intro q hq
    exact ⟨fun d hd hi => absurd hi (hout q (this q hq).1 d hd),
      gen fun hm => absurd hm (this q hq).2⟩

/-- The tasks of the generator and of the program; the first source of the program is compiled only
if `both`. -/
def exMixedTasks (both : Bool) (t : Nat) : List WEvent :=
  [.begin exCodegen.name, .task exCodegen.name (.g .begin) [],
    .task exCodegen.name (.g (.task b!"Generate")) [],
    .task exCodegen.name (.g (.call b!"Generate" true)) [(b!"/r/_b/codegen/v.cpp", some t)],
    .task exCodegen.name (.g (.finish [b!"Generate"] true)) [],
    .begin exMixedApp.id, .task exMixedApp.id (.t .objTask) []] ++
  (if both then [.task exMixedApp.id (.t (.exec 0 true none)) [],
    .task exMixedApp.id (.t (.add 0)) []] else []) ++
  [.task exMixedApp.id (.t (.exec 0 true none)) [], .task exMixedApp.id (.t (.add 0)) [],
    .task exMixedApp.id (.t .linkTask) [],
    .task exMixedApp.id (.t (.linkExec true none)) [(exMixedApp.output, some (t + 1))],
    .task exMixedApp.id (.t (.finish true)) []]

/-- A first build; then only the input of the generator is edited. -/
def exMixedHistory : List WEvent :=
  [.edit b!"/r/v.in" 1, .edit b!"/r/gen.py" 1, .edit b!"/r/main.cpp" 1,
    .launch exMixedScript.graph (setupWith [exMixedApp] [exCodegen])] ++ exMixedTasks true 2 ++
  [.join, .edit b!"/r/v.in" 4, .launch exMixedScript.graph (setupWith [exMixedApp] [exCodegen])] ++
  exMixedTasks false 5

theorem exMixedHistory_script : AllOfScript exMixedScript.graph (setupWith [exMixedApp] [exCodegen])
    (World.init (kindsOf [exMixedApp])) exMixedHistory := by
  refine allOfScript_of _ ?_ (by decide +kernel)
  intro g' s' hm
  simp only [exMixedHistory, exMixedTasks, if_true, if_false, Bool.false_eq_true, List.append_nil,
    List.mem_append, List.mem_cons, List.not_mem_nil, reduceCtorEq, false_or, or_false,
    WEvent.launch.injEq] at hm
  rcases hm with ⟨rfl, rfl⟩ | ⟨rfl, rfl⟩ <;> exact ⟨rfl, fun j _ => SameSetup.refl _⟩

/-- The second build runs the generator again, compiles the generated source again and links. -/
example : (∃ σ, (((World.init (kindsOf [exMixedApp])).steps exMixedHistory).step .join).comps
      exMixedApp.id = .target exMixedApp.made.fixed σ ∧ Target.Clean exMixedApp.made.fixed σ exMixedApp.cfg) ∧
    ∃ σ, (((World.init (kindsOf [exMixedApp])).steps exMixedHistory).step .join).comps
      exCodegen.name = .gen σ ∧
      Generated σ [b!"/r/v.in", b!"/r/gen.py"] [b!"/r/_b/codegen/v.cpp"] exMixedCommands := by
  have hp : exMixedScript.graph.ids.Perm (Names [exMixedApp] [exCodegen]) := List.Perm.swap _ _ _
  refine ⟨(C88_mixed exMixedScript_calls (by decide +kernel) hp exMixed_plain rfl
      exMixedHistory_script (by decide +kernel) (by decide +kernel) (by decide +kernel)).1 _ (by simp), ?_⟩
  have := C88_commands exMixedScript_calls (by decide +kernel) hp exMixed_plain rfl
    exMixedHistory_script (by decide +kernel) (by decide +kernel) (by decide +kernel) (g := exCodegen) (by simp)
    (commands := exMixedCommands) ⟨by decide, by decide⟩ exCodegen_cfg
  have e : exCodegen.inputs = [b!"/r/v.in", b!"/r/gen.py"] ∧
    exCodegen.outputs = [b!"/r/_b/codegen/v.cpp"] := by decide +kernel
  rw [e.1, e.2] at this
  obtain ⟨σ, h1, -, h2⟩ := this
  exact ⟨σ, h1, h2⟩

end Verif.Reg
