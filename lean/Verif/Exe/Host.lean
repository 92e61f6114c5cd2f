import Verif.Exe.Props
import Verif.Boot.Paths

/-!
# `host_toolchain_verify`

Before a script is built, `buildexe` compiles, links and runs a small program.
-/

namespace Verif.Exe
open Verif Verif.Env Verif.Schema Verif.Target Verif.Toolchain Verif.Path

/-! ## Model -/

/-- The source of the program (`toolchain_setup.cpp:33-34`). -/
def hostFile (p : Project) : Str :=
  Path.append (Path.append p.buildDir b!"verify_host_toolchain") b!"verify_host_toolchain.cpp"

/-- Its text (`toolchain_setup.cpp:36-48`), written in every run (`49`). -/
def hostText : Str :=
  b!"// Generated by BuildExe\n#include <filesystem>\n#include <iostream>\n\nnamespace fs = std::filesystem;\n\nint main() {\n  std::cout << \"********************\" << std::endl;\n  std::cout << \"Verifying host toolchain\" << std::endl;\n  std::cout << \"Current Path: \" << fs::current_path() << std::endl;\n  std::cout << \"********************\" << std::endl;\n  return 0;\n}"

/-- The flag for the standard (`toolchain_setup.cpp:55-65`); `none` is fatal. -/
def hostFlag : ToolchainId → Option Str
  | .gcc | .mingw => some b!"-std=c++17"
  | .msvc => some b!"/std:c++17"
  | _ => none

/-- The target (`toolchain_setup.cpp:51-65`); `none` is fatal. -/
def hostTarget (junk : Nat → TargetSchema) (p : Project) (list : Str → Option (List Str))
    (tc : Toolchain) : Option (Made × TargetSchema) := do
  let dir := Path.parentPath (hostFile p)
  let m ← executableGeneric junk p b!"verify" tc ⟨dir, dir⟩
  let flag ← hostFlag tc.id
  let u ← applyAll ⟨tc.config, m.rootDir, list⟩ m.info
    [.addSource (hostFile p) [], .addFlag .cppCompile flag]
  return (m, u)

/-- The build and the run (`toolchain_setup.cpp:66-79`): `σ` is the target when the executor is
done; `false` is fatal. -/
def hostPasses (sh : Shell) (m : Made) (σ : Sys) : Bool :=
  match σ.done with
  | none => false
  | some d =>
    d.ok && match execute sh (outputPath m.fixed) none with
      | none => false
      | some a => a.ok

/-! ## Specification -/

/-- Processes are started as by a shell: the first word of a command that ends with status 0 is a
program. -/
def Starts (sh : Shell) (program : Str → Prop) : Prop :=
  ∀ c d, (sh c d).ok = true → ∃ w, (words c).head? = some w ∧ program w

/-- The flag of the compiler for C++17. -/
inductive AsksFor17 : ToolchainId → Str → Prop where
  | gcc : AsksFor17 .gcc b!"-std=c++17"
  | mingw : AsksFor17 .mingw b!"-std=c++17"
  | msvc : AsksFor17 .msvc b!"/std:c++17"

/-! ## Lemmas -/

theorem hostFlag_some {id : ToolchainId} {f : Str} (h : hostFlag id = some f) : AsksFor17 id f := by
  cases id <;> simp only [hostFlag, Option.some.injEq, reduceCtorEq] at h <;> subst h <;> constructor

theorem words_spaces (s : Str) (q : c!"\"" ∉ s) : ∀ cur : Option Str, (∀ w, cur = some w → c!" " ∉ w) →
    ∀ w ∈ wordsFrom false cur s, c!" " ∉ w := by
  induction s with
  | nil =>
    intro cur hc w hw
    cases cur with
    | none => simp [wordsFrom] at hw
    | some v =>
      simp only [wordsFrom, List.mem_singleton] at hw
      rw [hw]; exact hc v rfl
  | cons b r ih =>
    simp only [List.mem_cons, not_or] at q
    intro cur hc w hw
    rw [wordsFrom.eq_def] at hw
    cases cur with
    | none =>
      simp only [if_neg (Ne.symm q.1), Option.getD_none, List.nil_append, and_true] at hw
      split at hw
      · exact ih q.2 none (by simp) w hw
      · rename_i hb
        refine ih q.2 (some [b]) ?_ w hw
        intro v hv
        cases hv
        simpa using Ne.symm hb
    | some v =>
      simp only [if_neg (Ne.symm q.1), Option.getD_some, and_true] at hw
      split at hw
      · rcases List.mem_cons.1 hw with rfl | hw
        · exact hc _ rfl
        · exact ih q.2 none (by simp) w hw
      · rename_i hb
        refine ih q.2 (some (v ++ [b])) ?_ w hw
        intro u hu
        cases hu
        simp only [List.mem_append, List.mem_singleton, not_or]
        exact ⟨hc v rfl, Ne.symm hb⟩

theorem words_one (s : Str) (h : c!" " ∉ s) (q : c!"\"" ∉ s) (cur : Str) :
    wordsFrom false (some cur) s = [cur ++ s] := by
  induction s generalizing cur with
  | nil => simp [wordsFrom]
  | cons b r ih =>
    simp only [List.mem_cons, not_or] at h q
    rw [wordsFrom.eq_def]
    simp only [if_neg (Ne.symm q.1), if_neg (not_and_of_not_left _ (Ne.symm h.1)), Option.getD_some]
    rw [ih h.2 q.2]; simp

/-! ## C87 -/

/-- C87: the program that is checked.  It is built from the generated file alone, with the flags of
the toolchain and the flag for the standard, below the build directory of the project.  Its root
directory is the one of the file, so that its object is in its own build directory too; no other flag and
no directory is added. -/
theorem C87_target {junk : Nat → TargetSchema} {p : Project} {list : Str → Option (List Str)}
    {tc : Toolchain} {m : Made} {u : TargetSchema} (hb : Reg.Absolute p.buildDir)
    (h : hostTarget junk p list tc = some (m, u)) :
    m.toolchain = tc ∧ m.type = .executable ∧
    m.buildDir = targetBuildDir (p.buildDir ++ b!"/verify_host_toolchain") tc.name b!"verify" ∧
    paths u.sources = [p.buildDir ++ b!"/verify_host_toolchain/verify_host_toolchain.cpp"] ∧
    u.headers = [] ∧ u.pchs = [] ∧ u.libs = [] ∧ u.compileDeps = [] ∧ u.linkDeps = [] ∧
    (∃ f, AsksFor17 tc.id f ∧ u.cppCompileFlags = m.info.cppCompileFlags ++ [f]) ∧
    m.name = b!"verify" ∧ m.rootDir = p.buildDir ++ b!"/verify_host_toolchain" ∧
    m.config = shipped tc.id .executable ∧
    u.includeDirs = [] ∧ u.libDirs = [] ∧ u.externalLibs = [] ∧
    (∀ k : FlagKind, k ≠ .cppCompile → entries k.option u = entries k.option m.info) := by
  simp only [hostTarget, Option.bind_eq_bind, Option.bind_eq_some_iff, Option.pure_def,
    Option.some.injEq, Prod.mk.injEq] at h
  obtain ⟨m', hm, f, hf, u', hu, rfl, rfl⟩ := h
  rw [← (C70_same junk p _ tc _ gccExe).1] at hm
  obtain ⟨h1, h2, h3, h4, h5, h6, -, h8⟩ := C70_made hm
  have d1 := hb.append (f := b!"verify_host_toolchain") (by decide)
  have d2 := d1.2.append (f := b!"verify_host_toolchain.cpp") (by decide)
  have hfile : hostFile p = p.buildDir ++ b!"/verify_host_toolchain/verify_host_toolchain.cpp" := by
    rw [hostFile, d2.1, d1.1]; simp
  have hdir : Path.parentPath (hostFile p) = p.buildDir ++ b!"/verify_host_toolchain" := by
    have e : hostFile p = (p.buildDir ++ b!"/verify_host_toolchain" ++ [slash]) ++
        b!"verify_host_toolchain.cpp" := by rw [hfile]; simp [slash]
    have : dirPart (hostFile p) = p.buildDir ++ b!"/verify_host_toolchain" ++ [slash] := by
      rw [e, dirPart, splitFile_unique _ _ (by decide) (.inr ⟨_, rfl⟩)]
    rw [Path.parentPath, this]
    simp [List.dropWhile, slash]
  have hin := (C67_inputs hu).2
  have nc : ∀ o, ∀ op ∈ [ApiOp.addSource (hostFile p) [], .addFlag .cppCompile f], ¬ Copies o op := by
    intro o op hop
    simp only [List.mem_cons, List.not_mem_nil, or_false] at hop
    rcases hop with rfl | rfl <;> exact id
  have none_ : ∀ o ∈ [SyncOption.headers, .pchs, .libs, .compileDeps, .linkDeps, .includeDirs, .libDirs,
      .externalLibs], entries o u' = [] := by
    intro o ho
    rw [hin o (nc o), h8 o (by intro k; cases k <;> rintro rfl <;> simp [FlagKind.option] at ho)]
    simp only [List.mem_cons, List.not_mem_nil, or_false] at ho
    rcases ho with rfl | rfl | rfl | rfl | rfl | rfl | rfl | rfl <;>
      simp [added, addsTo, FlagKind.option]
  have hs := hin .sources (nc _)
  rw [h8 .sources (by intro k; cases k <;> simp [FlagKind.option])] at hs
  have hcpp := hin .cppCompileFlags (nc _)
  have key : paths u'.sources = [p.buildDir ++ b!"/verify_host_toolchain/verify_host_toolchain.cpp"] := by
    have e : Path.append (Path.append m'.rootDir []) (hostFile p) = hostFile p := by
      have habs : isAbs (hostFile p) = true := d2.2.1
      rw [append_nil_append, append, if_pos habs]
    rw [← (Boot.texts_paths u').1, hs]
    simp [added, addsTo, Boot.texts, stored, FlagKind.option, e]
    rw [← hfile]
    exact d2.2.2.1
  refine ⟨h3, h2, by rw [h5, hdir], key, ?_, ?_, ?_, ?_, ?_, ⟨f, hostFlag_some hf, ?_⟩, h1,
    by rw [h4, hdir], h6, ?_, ?_, ?_, ?_⟩
  · simpa [entries] using none_ .headers (by simp)
  · simpa [entries] using none_ .pchs (by simp)
  · simpa [entries] using none_ .libs (by simp)
  · simpa [entries] using none_ .compileDeps (by simp)
  · simpa [entries] using none_ .linkDeps (by simp)
  · simp only [entries, added, addsTo, FlagKind.option, List.flatMap_cons, List.flatMap_nil,
      List.append_nil] at hcpp
    have inj := congrArg (List.filterMap (fun x : PathInfo ⊕ Str => x.elim (fun _ => none) some)) hcpp
    simpa [List.filterMap_append, List.filterMap_map, Function.comp_def] using inj
  · simpa [entries] using none_ .includeDirs (by simp)
  · simpa [entries] using none_ .libDirs (by simp)
  · simpa [entries] using none_ .externalLibs (by simp)
  · intro k hk
    rw [hin k.option (nc _)]
    cases k <;> simp_all [added, addsTo, FlagKind.option]

/-- C87: the toolchain is tried again in every run: the file has a new time stamp, so in a run that
passes the file was compiled and the program was linked, both with success, and nothing else; then the
program was run with success. -/
theorem C87_tried {junk : Nat → TargetSchema} {p : Project} {list : Str → Option (List Str)}
    {tc : Toolchain} {m : Made} {u : TargetSchema} {sh : Shell} {σ₀ σ : Sys} {o : List Str}
    {mid : List Event} (hb : Reg.Absolute p.buildDir) (h : hostTarget junk p list tc = some (m, u))
    (written : ∀ s, loadTargetFile σ₀.stateFile = some s → ¬ SourceCurrent σ₀.files s
      (p.buildDir ++ b!"/verify_host_toolchain/verify_host_toolchain.cpp"))
    (hrun : QuietRun m.fixed σ₀ u o mid σ) (pass : hostPasses sh m σ = true) :
    commands σ.log =
      [.obj (p.buildDir ++ b!"/verify_host_toolchain/verify_host_toolchain.cpp") true, .link true] ∧
    (sh (outputPath m.fixed) none).ok = true := by
  obtain ⟨-, -, -, hs, -, hpch, -⟩ := C87_target hb h
  rw [hostPasses] at pass
  split at pass
  · simp at pass
  · rename_i d hd
    rw [Bool.and_eq_true] at pass
    obtain ⟨hok, hex⟩ := pass
    refine ⟨?_, ?_⟩
    · have hn : (paths u.sources).Nodup := by rw [hs]; simp
      obtain ⟨-, a, b, l, hc, -, h2, hl, h3, h4, -⟩ := C04_C05_exactly_needed hn hrun hd hok
      rw [h2 (by rintro ⟨h, -⟩; exact h hpch), h4 (by
        intro s hsm hall
        exact written s hsm (hall.sources _ (by rw [hs]; simp)))] at hc
      have hobj : ∀ q, q ∈ l ↔
          q = p.buildDir ++ b!"/verify_host_toolchain/verify_host_toolchain.cpp" := by
        intro q
        rw [h3, NeedObj, hs, List.mem_singleton]
        constructor
        · exact fun h => h.1
        · rintro rfl
          exact ⟨rfl, fun s hsm hh => written s hsm hh.2⟩
      have : l = [p.buildDir ++ b!"/verify_host_toolchain/verify_host_toolchain.cpp"] := by
        match l, hl, hobj with
        | [], _, hobj => exact absurd ((hobj _).2 rfl) (by simp)
        | [x], _, hobj => rw [(hobj x).1 (by simp)]
        | x :: y :: r, hl, hobj =>
          have hx := (hobj x).1 (by simp)
          have hy := (hobj y).1 (by simp)
          rw [hx, hy] at hl
          simp at hl
      rw [hc, this]; rfl
    · rw [execute] at hex
      split at hex
      · simp at hex
      · rename_i a ha
        split at ha
        · cases ha
        · cases ha; exact hex

/-- C87: a toolchain that compiles, links and whose program runs passes.  Missing: a build directory
with a space or a quote, see `C87_space_false`. -/
theorem C87_runs_partial {m : Made} {σ : Sys} {d : Done} {sh : Shell} (hd : σ.done = some d)
    (hok : d.ok = true) (hs : c!" " ∉ outputPath m.fixed) (hq : c!"\"" ∉ outputPath m.fixed)
    (hne : outputPath m.fixed ≠ [])
    (runs : ∀ c, words c = [outputPath m.fixed] → (sh c none).ok = true) :
    hostPasses sh m σ = true := by
  rw [hostPasses]
  simp only [hd, hok, Bool.true_and, execute, if_neg hne]
  refine runs _ ?_
  rw [words]
  cases hp : outputPath m.fixed with
  | nil => exact absurd hp hne
  | cons b r =>
    rw [hp] at hs hq
    simp only [List.mem_cons, not_or] at hs hq
    rw [wordsFrom.eq_def]
    simp only [if_neg (Ne.symm hq.1), if_neg (not_and_of_not_left _ (Ne.symm hs.1)), Option.getD_none]
    rw [words_one r hs.2 hq.2]; simp

/-- C87, what fails: the path of the program is not quoted.  With a space in it, a shell starts
another program or none: the check passes only if there is a program with another path. -/
theorem C87_space_false {m : Made} {σ : Sys} {sh : Shell} {program : Str → Prop}
    (hs : c!" " ∈ outputPath m.fixed) (hq : c!"\"" ∉ outputPath m.fixed) (hsh : Starts sh program)
    (only : ∀ w, program w → w = outputPath m.fixed) : hostPasses sh m σ = false := by
  cases hp : hostPasses sh m σ
  · rfl
  · exfalso
    rw [hostPasses] at hp
    split at hp
    · simp at hp
    · rw [Bool.and_eq_true] at hp
      have hex := hp.2
      rw [execute] at hex
      split at hex
      · simp at hex
      · rename_i a ha
        split at ha
        · cases ha
        · cases ha
          obtain ⟨w, hw, hprog⟩ := hsh _ _ hex
          have hm : w ∈ words (outputPath m.fixed) := List.mem_of_head? hw
          have := words_spaces (outputPath m.fixed) hq none (by simp) w hm
          rw [only w hprog] at this
          exact this hs

/-- C87, exactly: on a shell that starts only the program just built, and on which this program succeeds,
a toolchain that compiles and links passes if and only if there is no space in the path of the program.
A quote in the path is left out. -/
theorem C87_exact {m : Made} {σ : Sys} {d : Done} {sh : Shell} (hd : σ.done = some d)
    (hok : d.ok = true) (hq : c!"\"" ∉ outputPath m.fixed) (hne : outputPath m.fixed ≠ [])
    (hsh : ∀ c dir, (sh c dir).ok = true ↔ (words c).head? = some (outputPath m.fixed)) :
    hostPasses sh m σ = true ↔ c!" " ∉ outputPath m.fixed := by
  constructor
  · intro h hs
    rw [C87_space_false (program := fun w => w = outputPath m.fixed) hs hq
      (fun c e hc => ⟨_, (hsh c e).1 hc, rfl⟩) fun _ h => h] at h
    exact Bool.false_ne_true h
  · exact fun hs => C87_runs_partial hd hok hs hq hne fun c hc => (hsh c _).2 (by rw [hc]; rfl)

end Verif.Exe
