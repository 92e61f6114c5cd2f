import Verif.Reg.ScriptsProps
import Verif.Reg.MixedExamples

/-! # A script that is edited between builds (C100) -/

namespace Verif.Reg
open Verif Verif.Schema
open Verif.Target (paths Project Made targetGeneric exGcc outputPath objPath Clean)
open Verif.Path (Inside PlainName)

/-- A boolean form of `Resumes`. -/
def resumes : Comp → Setup → Bool
  | .target _ σ, .target c _ => σ.lost.all fun l => decide (l = c)
  | .gen σ, .gen _ => σ.lost.isEmpty
  | _, _ => true

/-- Every process configures the builders whose runs were killed as these runs did. -/
def resuming : World → List WEvent → Bool
  | _, [] => true
  | w, e :: l =>
    (match e with
      | .launch g s => w.active || g.ids.all fun j => resumes (w.comps j) (s j)
      | _ => true) && resuming (w.step e) l

theorem resumes_of {c : Comp} {s : Setup} (h : resumes c s = true) : Resumes c s := by
  cases c <;> cases s <;> try exact trivial
  · intro l hl
    exact of_decide_eq_true (List.all_eq_true.1 h l hl)
  · intro l hl
    rw [resumes, List.isEmpty_iff] at h
    rw [h] at hl
    exact absurd hl (by simp)

theorem allOfVersions_of {F : Versions} {kinds : Str → Kind} (evs : List WEvent)
    (hl : ∀ g s, .launch g s ∈ evs → F g s) (hq : quiet (World.init kinds) evs = true)
    (hr : resuming (World.init kinds) evs = true) : AllOfVersions F (World.init kinds) evs := by
  have gen : ∀ (evs : List WEvent) (w : World), BInv w → (∀ g s, .launch g s ∈ evs → F g s) →
      quiet w evs = true → resuming w evs = true → AllOfVersions F w evs := by
    intro evs
    induction evs with
    | nil => intros; exact trivial
    | cons e l ih =>
      intro w hb h hq hr
      simp only [quiet, Bool.and_eq_true] at hq
      simp only [resuming, Bool.and_eq_true] at hr
      refine ⟨?_, ih _ (bInv_step hb e) (fun g' s' hm => h g' s' (by simp [hm])) hq.2 hr.2⟩
      cases e with
      | edit p t =>
        obtain ⟨h1, h2⟩ := Bool.and_eq_true_iff.1 hq.1
        exact ⟨of_decide_eq_true h1, not_delicate hb h2⟩
      | delete p => exact not_delicate hb hq.1
      | launch g s =>
        intro ha
        refine ⟨h g s (by simp), fun j hj => resumes_of ?_⟩
        have : (w.active || g.ids.all fun j => resumes (w.comps j) (s j)) = true := hr.1
        rw [ha, Bool.false_or] at this
        exact List.all_eq_true.1 this j hj
      | _ => trivial
  exact gen evs _ (bInv_init kinds) hl hq hr

/-! ## The second version of the project of C88

In the first version the program is made of `main.cpp` and the generated `v.cpp`.  In the second one
the generator has another command, `v.cpp` is the source of a library, and the program has another
source, another flag, and is linked with the library. -/

def exMixedCommands2 : List Str := [b!"python3 /r/gen.py -x /r/v.in /r/_b/codegen/v.cpp"]

def exCodegen2 : ScriptGen :=
  ⟨b!"codegen", (Generator.fileCfg [] [b!"/r/v.in", b!"/r/gen.py"] [b!"/r/_b/codegen/v.cpp"]
    exMixedCommands2).getD []⟩

theorem exCodegen2_cfg : Generator.fileCfg [] [b!"/r/v.in", b!"/r/gen.py"] [b!"/r/_b/codegen/v.cpp"]
    exMixedCommands2 = some exCodegen2.cfg := by
  have : (Generator.fileCfg [] [b!"/r/v.in", b!"/r/gen.py"] [b!"/r/_b/codegen/v.cpp"]
    exMixedCommands2).isSome = true := by decide +kernel
  obtain ⟨x, hx⟩ := Option.isSome_iff_exists.1 this
  rw [exCodegen2, hx, Option.getD_some]

def exMixedLib : ScriptTarget :=
  let m := (targetGeneric (fun _ => TargetSchema.empty) exMixedProject b!"lib" .staticLibrary exGcc
    ⟨b!"/r", b!"/r/_b"⟩).getD exNoMade
  ⟨m, { m.info with sources := [⟨b!"/r/_b/codegen/v.cpp", []⟩] }, [b!"/r/_b/codegen/v.cpp"]⟩

def exMixedApp2 : ScriptTarget :=
  ⟨exMixedApp.made, { exMixedApp.made.info with
      sources := [⟨b!"/r/main.cpp", []⟩, ⟨b!"/r/x.cpp", []⟩], cppCompileFlags := [b!"-O2"],
      libs := [⟨exMixedLib.output, []⟩] },
    [b!"/r/main.cpp", b!"/r/x.cpp"]⟩

def exMixedCalls2 : List Call :=
  let c : Condition := ⟨true, false⟩
  [.build c exCodegen2.name, .build c exMixedLib.id, .dep c exMixedLib.id exCodegen2.name,
    .build c exMixedApp2.id, .dep c exMixedApp2.id exMixedLib.id]

def exMixedScript2 : Script :=
  ⟨⟨[exCodegen2.name, exMixedLib.id, exMixedApp2.id],
    [(exCodegen2.name, exMixedLib.id), (exMixedLib.id, exMixedApp2.id)], []⟩, []⟩

def exVersion1 : Version := ⟨exMixedCalls, exMixedScript, [exMixedApp], [exCodegen]⟩

def exVersion2 : Version := ⟨exMixedCalls2, exMixedScript2, [exMixedLib, exMixedApp2], [exCodegen2]⟩

def exVersions (v : Version) : Prop := v = exVersion1 ∨ v = exVersion2

def exVKinds : Str → Kind := kindsOf [exMixedLib, exMixedApp2]

theorem exMixed2_plain : PlainProject exMixedProject [exMixedLib, exMixedApp2] [exCodegen2]
    exMixedScript2.graph.edges := by
  have two : ∀ {P : ScriptTarget → Prop}, P exMixedLib → P exMixedApp2 →
      ∀ t ∈ [exMixedLib, exMixedApp2], P t := by
    intro P h1 h2 t ht
    simp only [List.mem_cons, List.not_mem_nil, or_false] at ht
    rcases ht with rfl | rfl
    · exact h1
    · exact h2
  have gen : ∀ {P : ScriptGen → Prop}, P exCodegen2 → ∀ t ∈ [exCodegen2], P t := by
    intro P h t ht
    rw [List.mem_singleton.1 ht]; exact h
  have hd1 : exMixedLib.made.buildDir = b!"/r/_b/gcc/lib" := by decide +kernel
  have hd2 : exMixedApp2.made.buildDir = b!"/r/_b/gcc/app" := by decide +kernel
  have hout : ∀ q, (b!"/r/_b/gcc/lib" ++ [Path.slash]).isPrefixOf q = false →
      (b!"/r/_b/gcc/app" ++ [Path.slash]).isPrefixOf q = false →
      ∀ d ∈ [exMixedLib, exMixedApp2], ¬ Inside d.made.buildDir q := by
    intro q hq hq'
    refine two ?_ ?_
    · rw [hd1]; exact notInside (by decide) hq
    · rw [hd2]; exact notInside (by decide) hq'
  refine ⟨by decide +kernel, two ?_ ?_, two ?_ ?_, gen ?_, two ?_ ?_, two ?_ ?_, gen ?_,
    two ?_ ?_, gen ?_⟩
  · exact ⟨fun _ => TargetSchema.empty, b!"lib", .staticLibrary, exGcc, b!"/r", by decide +kernel⟩
  · exact ⟨fun _ => TargetSchema.empty, b!"app", .executable, exGcc, b!"/r", by decide +kernel⟩
  · decide +kernel
  · decide +kernel
  · decide +kernel
  · exact ⟨⟨b!"o", by decide +kernel⟩, ⟨b!"h", by decide +kernel⟩, ⟨b!"gch", by decide +kernel⟩⟩
  · exact ⟨⟨b!"o", by decide +kernel⟩, ⟨b!"h", by decide +kernel⟩, ⟨b!"gch", by decide +kernel⟩⟩
  · decide +kernel
  · decide +kernel
  · have : ∀ q ∈ exCodegen2.outputs, (b!"/r/_b/gcc/lib" ++ [Path.slash]).isPrefixOf q = false ∧
        (b!"/r/_b/gcc/app" ++ [Path.slash]).isPrefixOf q = false := by decide +kernel
    exact fun q hq => hout q (this q hq).1 (this q hq).2
  · have : ∀ q ∈ given exMixedLib.cfg ++ paths exMixedLib.cfg.libs,
        (b!"/r/_b/gcc/lib" ++ [Path.slash]).isPrefixOf q = false ∧
        (b!"/r/_b/gcc/app" ++ [Path.slash]).isPrefixOf q = false := by decide +kernel
    intro q hq
    exact ⟨fun d hd hi => absurd hi (hout q (this q hq).1 (this q hq).2 d hd),
      gen fun _ => .edge (by simp [exMixedScript2])⟩
  · have hg : ∀ q ∈ given exMixedApp2.cfg ++ paths exMixedApp2.cfg.libs,
        q = exMixedLib.output ∨ ((b!"/r/_b/gcc/lib" ++ [Path.slash]).isPrefixOf q = false ∧
        (b!"/r/_b/gcc/app" ++ [Path.slash]).isPrefixOf q = false) := by decide +kernel
    have hn : ∀ q ∈ given exMixedApp2.cfg ++ paths exMixedApp2.cfg.libs, q ∉ exCodegen2.outputs := by
      decide +kernel
    have ho : (b!"/r/_b/gcc/app" ++ [Path.slash]).isPrefixOf exMixedLib.output = false := by decide +kernel
    intro q hq
    refine ⟨?_, gen fun hm => absurd hm (hn q hq)⟩
    rcases hg q hq with rfl | h
    · refine two (fun _ => ⟨rfl, .edge (by simp [exMixedScript2])⟩) fun hi => ?_
      rw [hd2] at hi
      exact absurd hi (notInside (by decide) ho)
    · exact fun d hd hi => absurd hi (hout q h.1 h.2 d hd)
  · have : ∀ q ∈ exCodegen2.inputs, ((b!"/r/_b/gcc/lib" ++ [Path.slash]).isPrefixOf q = false ∧
        (b!"/r/_b/gcc/app" ++ [Path.slash]).isPrefixOf q = false) ∧ q ∉ exCodegen2.outputs := by
      decide +kernel
    intro q hq
    exact ⟨fun d hd hi => absurd hi (hout q (this q hq).1.1 (this q hq).1.2 d hd),
      gen fun hm => absurd hm (this q hq).2⟩

theorem exCodegen_file : IsFileGen exCodegen exMixedCommands :=
  ⟨⟨by decide, by decide⟩, _, _, _, exCodegen_cfg⟩

theorem exCodegen2_file : IsFileGen exCodegen2 exMixedCommands2 :=
  ⟨⟨by decide, by decide⟩, _, _, _, exCodegen2_cfg⟩

theorem exVersions_file : ∀ v, exVersions v → ∀ g ∈ v.gs, ∃ commands, IsFileGen g commands := by
  rintro v (rfl | rfl) g hg <;> rw [List.mem_singleton.1 hg]
  · exact ⟨_, exCodegen_file⟩
  · exact ⟨_, exCodegen2_file⟩

theorem exVersions_targets : ∀ v, exVersions v → ∀ t ∈ v.ts,
    (t.id = exMixedLib.id ∧ t.made = exMixedLib.made) ∨
    (t.id = exMixedApp2.id ∧ t.made = exMixedApp2.made) := by
  rintro v (rfl | rfl) t ht
  · rw [List.mem_singleton.1 ht]; exact .inr ⟨rfl, rfl⟩
  · simp only [exVersion2, List.mem_cons, List.not_mem_nil, or_false] at ht
    rcases ht with rfl | rfl
    · exact .inl ⟨rfl, rfl⟩
    · exact .inr ⟨rfl, rfl⟩

theorem exVersions_plain : PlainVersions exMixedProject exVKinds exVersions where
  accepted := by
    rintro v (rfl | rfl)
    · exact ⟨⟨3, exMixedScript_calls⟩, by decide +kernel, List.Perm.swap _ _ _⟩
    · exact ⟨⟨5, by decide +kernel⟩, by decide +kernel, by decide +kernel⟩
  plain := by
    rintro v (rfl | rfl)
    · exact exMixed_plain
    · exact exMixed2_plain
  objects := by
    rintro v v' (rfl | rfl) (rfl | rfl) <;> decide +kernel
  targets := by
    have hne : exMixedLib.id ≠ exMixedApp2.id := by decide +kernel
    have hlib : exVKinds exMixedLib.id = .target exMixedLib.made.fixed := by
      simp [exVKinds, kindsOf]
    have happ : exVKinds exMixedApp2.id = .target exMixedApp2.made.fixed := by
      simp [exVKinds, kindsOf, hne]
    intro j fx
    constructor
    · intro h
      by_cases h1 : exMixedLib.id = j
      · subst h1
        rw [hlib] at h
        exact ⟨exVersion2, exMixedLib, .inr rfl, by simp [exVersion2], rfl, Kind.target.inj h⟩
      · by_cases h2 : exMixedApp2.id = j
        · subst h2
          rw [happ] at h
          exact ⟨exVersion2, exMixedApp2, .inr rfl, by simp [exVersion2], rfl, Kind.target.inj h⟩
        · simp [exVKinds, kindsOf, h1, h2] at h
    · rintro ⟨v, t, hv, ht, rfl, rfl⟩
      rcases exVersions_targets v hv t ht with ⟨h1, h2⟩ | ⟨h1, h2⟩
      · rw [h1, h2, hlib]
      · rw [h1, h2, happ]
  gens := by
    have h : exMixedLib.id ≠ b!"codegen" ∧ exMixedApp2.id ≠ b!"codegen" := by decide +kernel
    rintro v (rfl | rfl) g hg <;> rw [List.mem_singleton.1 hg] <;>
      simp [exVKinds, kindsOf, exCodegen, exCodegen2, h]
  pch := by
    intro v v' hv hv' t ht t' ht' _
    have : ∀ v, exVersions v → ∀ t ∈ v.ts, t.cfg.pchs = [] := by
      rintro v (rfl | rfl) <;> decide +kernel
    rw [this v hv t ht, this v' hv' t' ht']
    simp
  handlers := by
    intro v v' hv hv' g hg g' hg' _ id i i' hi hi'
    obtain ⟨_, h⟩ := exVersions_file v hv g hg
    obtain ⟨_, h'⟩ := exVersions_file v' hv' g' hg'
    exact (fileGens_data h h' id i i' hi hi').1
  data := by
    intro v v' hv hv' g hg g' hg' _ id i i' hd a b hi hi'
    obtain ⟨_, h⟩ := exVersions_file v hv g hg
    obtain ⟨_, h'⟩ := exVersions_file v' hv' g' hg'
    exact (fileGens_data h h' id i i' hi hi').2 hd a b

/-- The generator runs its commands. -/
def exVGen (t : Nat) : List WEvent :=
  [.begin exCodegen.name, .task exCodegen.name (.g .begin) [],
    .task exCodegen.name (.g (.task b!"Generate")) [],
    .task exCodegen.name (.g (.call b!"Generate" true)) [(b!"/r/_b/codegen/v.cpp", some t)],
    .task exCodegen.name (.g (.finish [b!"Generate"] true)) []]

/-- The program is compiled and linked. -/
def exVApp (t : Nat) : List WEvent :=
  [.begin exMixedApp.id, .task exMixedApp.id (.t .objTask) [],
    .task exMixedApp.id (.t (.exec 0 true none)) [], .task exMixedApp.id (.t (.exec 0 true none)) [],
    .task exMixedApp.id (.t (.add 0)) [], .task exMixedApp.id (.t (.add 0)) [],
    .task exMixedApp.id (.t .linkTask) [],
    .task exMixedApp.id (.t (.linkExec true none)) [(exMixedApp.output, some t)],
    .task exMixedApp.id (.t (.finish true)) []]

/-- The first version is built.  The second one is killed while the library is compiled, and built
again. -/
def exVHistory : List WEvent :=
  [.edit b!"/r/v.in" 1, .edit b!"/r/gen.py" 1, .edit b!"/r/main.cpp" 1, .edit b!"/r/x.cpp" 1,
    .launch exMixedScript.graph (setupWith [exMixedApp] [exCodegen])] ++ exVGen 2 ++ exVApp 3 ++
  [.join, .launch exMixedScript2.graph (setupWith [exMixedLib, exMixedApp2] [exCodegen2])] ++
  exVGen 4 ++ [.begin exMixedLib.id, .task exMixedLib.id (.t .objTask) [],
    .task exMixedLib.id (.t (.exec 0 true none)) [], .kill (fun _ => []) (fun _ => none),
    .launch exMixedScript2.graph (setupWith [exMixedLib, exMixedApp2] [exCodegen2]),
    .begin exCodegen.name, .task exCodegen.name (.g .begin) [],
    .task exCodegen.name (.g (.task b!"Generate")) [],
    .task exCodegen.name (.g (.finish [b!"Generate"] true)) []] ++
  exTargetTasks exMixedLib.id exMixedLib.output 5 ++ exVApp 6

theorem exVHistory_versions : AllOfVersions (versionsOf exVersions) (World.init exVKinds) exVHistory := by
  refine allOfVersions_of _ ?_ (by decide +kernel) (by decide +kernel)
  intro g s hm
  simp only [exVHistory, exVGen, exVApp, exTargetTasks, List.mem_append, List.mem_cons, List.not_mem_nil,
    reduceCtorEq, false_or, or_false, WEvent.launch.injEq] at hm
  rcases hm with (⟨rfl, rfl⟩ | ⟨rfl, rfl⟩) | ⟨rfl, rfl⟩
  · exact ⟨exVersion1, .inl rfl, rfl, fun j _ => SameSetup.refl _⟩
  · exact ⟨exVersion2, .inr rfl, rfl, fun j _ => SameSetup.refl _⟩
  · exact ⟨exVersion2, .inr rfl, rfl, fun j _ => SameSetup.refl _⟩

def exVWorld : World := (World.init exVKinds).steps exVHistory

theorem exVWorld_ok : exVWorld.active = true ∧ exVWorld.calm = true ∧
    (exVWorld.step .join).result = some true := by decide +kernel

theorem exVWorld_is : exVersion2.Is exVWorld.graph exVWorld.setup := by
  have hg : exVWorld.graph = exMixedScript2.graph := by decide +kernel
  obtain ⟨ha, hc, hr⟩ := exVWorld_ok
  obtain ⟨⟨v, rfl | rfl, h⟩, -⟩ := C100_versions_partial rfl exVersions_plain.sound exVHistory_versions
    ha hc hr
  · exact absurd (hg.symm.trans h.1) (by decide +kernel)
  · exact h

/-- The second version is built as it should be. -/
example : (∃ σ, (exVWorld.step .join).comps exMixedApp2.id = .target exMixedApp2.made.fixed σ ∧
      Clean exMixedApp2.made.fixed σ exMixedApp2.cfg) ∧
    (∃ σ, (exVWorld.step .join).comps exCodegen2.name = .gen σ ∧
      σ.files = (exVWorld.step .join).files ∧
      Generated σ exCodegen2.inputs exCodegen2.outputs exMixedCommands2) ∧
    LinkedWith (exVWorld.step .join) exMixedLib.id exMixedApp2.id exMixedLib.output := by
  obtain ⟨ha, hc, hr⟩ := exVWorld_ok
  have h := C100_project_partial (w := exVWorld) exVersions_plain rfl exVHistory_versions ha hc hr (.inr rfl) exVWorld_is
  have hg := C100_commands_partial (w := exVWorld) exVersions_plain rfl exVHistory_versions ha hc hr
    (.inr rfl) exVWorld_is (g := exCodegen2) (by simp [exVersion2]) exCodegen2_file
  refine ⟨h.1 exMixedApp2 (by simp [exVersion2]), hg,
    h.2.2 exMixedLib (by simp [exVersion2]) exMixedApp2 (by simp [exVersion2]) (by decide +kernel) ?_ ?_ ?_⟩
  · have own : ∀ v, exVersions v → ∀ t ∈ v.ts,
        (∀ q ∈ paths t.cfg.sources, objPath t.made.fixed q ≠ t.output) ∧
          t.output ∉ pchFiles t.made.fixed := by
      rintro v (rfl | rfl) <;> decide +kernel
    exact fun v hv t ht _ => own v hv t ht
  · rintro v (rfl | rfl) <;> decide +kernel
  · intro e he
    refine ⟨fun t h => ?_, fun h => ?_⟩
    · subst h
      simp only [exVHistory, exVGen, exVApp, exTargetTasks, List.mem_append, List.mem_cons,
        List.not_mem_nil, reduceCtorEq, false_or, or_false, WEvent.edit.injEq] at he
      rcases he with hh | hh | hh | hh <;> exact absurd hh.1 (by decide +kernel)
    · subst h
      simp [exVHistory, exVGen, exVApp, exTargetTasks] at he

/-! ## A killed run, and back to the version before -/

/-- The program with another flag only. -/
def exMixedApp3 : ScriptTarget :=
  ⟨exMixedApp.made, { exMixedApp.cfg with cppCompileFlags := [b!"-O2"] }, exMixedApp.order⟩

/-- The first version is built.  Another flag is added to the program, the build of it is killed when
one source has been compiled, the flag is removed again, and the first version is built. -/
def exVKilled : List WEvent :=
  [.edit b!"/r/v.in" 1, .edit b!"/r/gen.py" 1, .edit b!"/r/main.cpp" 1,
    .launch exMixedScript.graph (setupWith [exMixedApp] [exCodegen])] ++ exVGen 2 ++ exVApp 3 ++
  [.join, .launch exMixedScript.graph (setupWith [exMixedApp3] [exCodegen]),
    .begin exCodegen.name, .task exCodegen.name (.g .begin) [],
    .task exCodegen.name (.g (.task b!"Generate")) [],
    .task exCodegen.name (.g (.finish [b!"Generate"] true)) [],
    .begin exMixedApp.id, .task exMixedApp.id (.t .objTask) [],
    .task exMixedApp.id (.t (.exec 0 true none)) [], .kill (fun _ => []) (fun _ => none),
    .launch exMixedScript.graph (setupWith [exMixedApp] [exCodegen]),
    .begin exCodegen.name, .task exCodegen.name (.g .begin) [],
    .task exCodegen.name (.g (.task b!"Generate")) [],
    .task exCodegen.name (.g (.finish [b!"Generate"] true)) [],
    .begin exMixedApp.id, .task exMixedApp.id (.t .objTask) [],
    .task exMixedApp.id (.t .linkTask) [], .task exMixedApp.id (.t (.finish true)) []]

def exVersion3 : Version := ⟨exMixedCalls, exMixedScript, [exMixedApp3], [exCodegen]⟩

def exVersionsKilled (v : Version) : Prop := v = exVersion1 ∨ v = exVersion3

theorem PlainProject.swap {p : Project} {t t' : ScriptTarget} {gs : List ScriptGen}
    {deps : List (Str × Str)} (h : PlainProject p [t] gs deps) (hm : t'.made = t.made)
    (hs : t'.cfg.sources = t.cfg.sources) (hg : given t'.cfg = given t.cfg)
    (hl : t'.cfg.libs = t.cfg.libs) : PlainProject p [t'] gs deps := by
  have one : ∀ {P : ScriptTarget → Prop}, P t' → ∀ x ∈ [t'], P x := by
    intro P h x hx
    rw [List.mem_singleton.1 hx]; exact h
  have ht : t ∈ [t] := by simp
  have hid : t'.id = t.id := by rw [ScriptTarget.id, ScriptTarget.id, hm]
  have ho : t'.output = t.output := by rw [ScriptTarget.output, ScriptTarget.output, hm]
  have hr : ∀ {id q}, MayRead [t] gs deps id q → MayRead [t'] gs deps id q := by
    intro id q h
    refine ⟨one ?_, h.2⟩
    rw [hm, ho, hid]; exact h.1 t ht
  refine ⟨h.build, one ?_, one ?_, h.gens, one ?_, one ?_, fun g hg q hq => one ?_, one ?_,
    fun g hg q hq => hr (h.genReads g hg q hq)⟩
  · rw [hm]; exact h.made t ht
  · rw [hm]; exact h.names t ht
  · rw [hm]; exact h.exts t ht
  · rw [hm, hs]; exact h.sources t ht
  · rw [hm]; exact h.apart g hg q hq t ht
  · rw [hg, hl, hid]; exact fun q hq => hr (h.targetReads t ht q hq)

theorem exVersionsKilled_plain :
    PlainVersions exMixedProject (kindsOf [exMixedApp]) exVersionsKilled where
  accepted := by
    rintro v (rfl | rfl) <;>
      exact ⟨⟨3, exMixedScript_calls⟩, by decide +kernel, List.Perm.swap _ _ _⟩
  plain := by
    rintro v (rfl | rfl)
    · exact exMixed_plain
    · exact exMixed_plain.swap rfl rfl rfl rfl
  objects := by
    rintro v v' (rfl | rfl) (rfl | rfl) <;> decide +kernel
  targets := by
    intro j fx
    constructor
    · intro h
      by_cases h2 : exMixedApp.id = j
      · subst h2
        simp only [kindsOf, decide_true, List.find?_cons_of_pos, Kind.target.injEq] at h
        exact ⟨exVersion1, exMixedApp, .inl rfl, by simp [exVersion1], rfl, h⟩
      · simp [kindsOf, h2] at h
    · rintro ⟨v, t, hv, ht, rfl, rfl⟩
      rcases hv with rfl | rfl <;> rw [List.mem_singleton.1 ht]
      · simp [kindsOf]
      · have : exMixedApp3.id = exMixedApp.id := rfl
        rw [this]
        simp only [kindsOf, decide_true, List.find?_cons_of_pos]
        rfl
  gens := by
    have h : exMixedApp.id ≠ b!"codegen" := by decide +kernel
    rintro v (rfl | rfl) g hg <;> rw [List.mem_singleton.1 hg] <;> simp [kindsOf, exCodegen, h]
  pch := by
    intro v v' hv hv' t ht t' ht' _
    have : ∀ v, exVersionsKilled v → ∀ t ∈ v.ts, t.cfg.pchs = [] := by
      rintro v (rfl | rfl) <;> decide +kernel
    rw [this v hv t ht, this v' hv' t' ht']
    simp
  handlers := by
    intro v v' hv hv' g hg g' hg' _ id i i' hi hi'
    have : ∀ v, exVersionsKilled v → ∀ g ∈ v.gs, g = exCodegen := by
      rintro v (rfl | rfl) g hg <;> exact List.mem_singleton.1 hg
    rw [this v hv g hg] at hi
    rw [this v' hv' g' hg'] at hi'
    exact (fileGens_data exCodegen_file exCodegen_file id i i' hi hi').1
  data := by
    intro v v' hv hv' g hg g' hg' _ id i i' hd a b hi hi'
    have : ∀ v, exVersionsKilled v → ∀ g ∈ v.gs, g = exCodegen := by
      rintro v (rfl | rfl) g hg <;> exact List.mem_singleton.1 hg
    rw [this v hv g hg] at hi
    rw [this v' hv' g' hg'] at hi'
    exact (fileGens_data exCodegen_file exCodegen_file id i i' hi hi').2 hd a b

/-- An object file of the target is not what a build from scratch would leave. -/
def staleObj (c : TargetSchema) (p : Str) : Comp → Bool
  | .target fx σ => decide (σ.objs (objPath fx p) ≠ some (Target.cleanObj fx σ.files c p))
  | .gen _ => false

theorem setup_writes : ∀ (ws : Writes) (w : World), (w.writes ws).setup = w.setup := by
  intro ws
  induction ws with
  | nil => intro w; rfl
  | cons x l ih => intro w; exact ih (w.write x.1 x.2)

theorem setup_step {w : World} {e : WEvent} (h : ∀ g s, e ≠ .launch g s) :
    (w.step e).setup = w.setup := by
  cases e with
  | launch g s => exact absurd rfl (h g s)
  | task id e ws =>
    simp only [World.step]
    split
    · exact setup_writes ws _
    · rfl
  | _ => simp only [World.step] <;> (try split) <;> rfl

theorem setup_steps : ∀ (evs : List WEvent) (w : World), (∀ e ∈ evs, ∀ g s, e ≠ .launch g s) →
    (w.steps evs).setup = w.setup := by
  intro evs
  induction evs with
  | nil => intro w _; rfl
  | cons e l ih =>
    intro w h
    exact (ih (w.step e) fun x hx => h x (by simp [hx])).trans (setup_step (h e (by simp)))

def exVKilledWorld : World := (World.init (kindsOf [exMixedApp])).steps exVKilled

theorem exVKilledWorld_def : exVKilledWorld = (World.init (kindsOf [exMixedApp])).steps exVKilled := by
  rw [exVKilledWorld]

attribute [local irreducible] exVKilledWorld

theorem ofKind_history {kinds : Str → Kind} {evs : List WEvent} {w : World}
    (hw : w = (World.init kinds).steps evs) (j : Str) : OfKind (kinds j) ((w.step .join).comps j) := by
  rw [hw]
  exact ofKind_step _ (ofKind_steps evs _ (OfKind.init _))

/-- C100 is false when a builder is configured otherwise after a run of it was killed: the script is
edited, the build is killed, the edit is undone, and the next build succeeds, although an object file is
still the one compiled with the edited flags. -/
theorem C100_killed_false : ∃ p kinds V evs w v t, PlainVersions p kinds V ∧
    w = (World.init kinds).steps evs ∧ (∀ g s, .launch g s ∈ evs → versionsOf V g s) ∧
    quiet (World.init kinds) evs = true ∧ w.active = true ∧ w.calm = true ∧
    (w.step .join).result = some true ∧ V v ∧ v.Is w.graph w.setup ∧ t ∈ v.ts ∧
    ∃ σ, (w.step .join).comps t.id = .target t.made.fixed σ ∧ ¬ Clean t.made.fixed σ t.cfg := by
  have hst : staleObj exMixedApp.cfg b!"/r/main.cpp" ((exVKilledWorld.step .join).comps exMixedApp.id)
      = true := by decide +kernel
  have hk : kindsOf [exMixedApp] exMixedApp.id = .target exMixedApp.made.fixed := by simp [kindsOf]
  have hof : OfKind (.target exMixedApp.made.fixed) ((exVKilledWorld.step .join).comps exMixedApp.id) := by
    rw [← hk]
    exact ofKind_history exVKilledWorld_def exMixedApp.id
  refine ⟨exMixedProject, kindsOf [exMixedApp], exVersionsKilled, exVKilled, exVKilledWorld, exVersion1,
    exMixedApp,
    exVersionsKilled_plain, exVKilledWorld_def, ?_, by decide +kernel, by decide +kernel, by decide +kernel,
    by decide +kernel, .inl rfl, ⟨by decide +kernel, ?_⟩, by simp [exVersion1], ?_⟩
  · intro g s hm
    simp only [exVKilled, exVGen, exVApp, List.mem_append, List.mem_cons, List.not_mem_nil,
      reduceCtorEq, false_or, or_false, WEvent.launch.injEq] at hm
    rcases hm with ⟨rfl, rfl⟩ | ⟨rfl, rfl⟩ | ⟨rfl, rfl⟩
    · exact ⟨exVersion1, .inl rfl, rfl, fun j _ => SameSetup.refl _⟩
    · exact ⟨exVersion3, .inr rfl, rfl, fun j _ => SameSetup.refl _⟩
    · exact ⟨exVersion1, .inl rfl, rfl, fun j _ => SameSetup.refl _⟩
  · intro j _
    have e : exVKilled = exVKilled.take 28 ++
        .launch exMixedScript.graph (setupWith [exMixedApp] [exCodegen]) :: exVKilled.drop 29 := rfl
    rw [exVKilledWorld_def, e, World.steps, List.foldl_append, List.foldl_cons]
    rw [← World.steps, ← World.steps, setup_steps _ _ (by
      intro e he g s hx
      subst hx
      simp [exVKilled, exVGen, exVApp] at he), World.step, if_pos (by decide +kernel)]
    exact SameSetup.refl _
  · revert hof hst
    generalize (exVKilledWorld.step .join).comps exMixedApp.id = c
    intro hst hof
    cases c with
    | gen σ => exact hof.elim
    | target fx σ =>
      obtain rfl : fx = exMixedApp.made.fixed := hof
      refine ⟨σ, rfl, fun hc => ?_⟩
      have hm : b!"/r/main.cpp" ∈ paths exMixedApp.cfg.sources := by decide +kernel
      exact of_decide_eq_true hst (hc.obj _ hm)

end Verif.Reg
