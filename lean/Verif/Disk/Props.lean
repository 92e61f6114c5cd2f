import Verif.Disk.MadeLemmas
import Verif.Target.CommandProps

namespace Verif.Disk
open Verif Verif.Schema Verif.Target Verif.Command
open Verif.Path (splitSlash dirPart filename isAbs slash dot dotdot IsName asDir)

/-! ## Example -/

/-- A disk with the directories on the way to the given places. -/
def diskOf (dirs : List Place) (files : List (Place × Str)) (cwd : Place) : Disk where
  isDir x := dirs.any fun p => x.isSuffixOf p
  file x := (files.find? fun f => f.1 = x).map (·.2)
  cwd := cwd

theorem diskOf_wf (dirs : List Place) (files : List (Place × Str)) (cwd : Place) (h : cwd ∈ dirs) :
    (diskOf dirs files cwd).Wf where
  root := by
    simp only [diskOf, List.any_eq_true]
    exact ⟨cwd, h, by simp [List.isSuffixOf_iff_suffix]⟩
  cwd := by
    simp only [diskOf, List.any_eq_true]
    exact ⟨cwd, h, by simp [List.isSuffixOf_iff_suffix]⟩
  closed := by
    intro c x
    simp only [diskOf, List.any_eq_true, List.isSuffixOf_iff_suffix]
    rintro ⟨p, hp, hs⟩
    exact ⟨p, hp, (List.suffix_cons _ _).trans hs⟩

/-- `/p` is the working directory, with a source in it. -/
def exDisk : Disk := diskOf [[b!"p"], [b!"src", b!"p"]] [([b!"main.cpp", b!"src", b!"p"], b!"int main() {}")] [b!"p"]

def exProject : Project := ⟨true, b!"/p", b!"/p/build"⟩
def exEnv : TargetEnv := ⟨b!"/p", b!"/p/build"⟩

/-! ## C91: everything a build writes goes into a directory that exists -/

/-- Make a target.  As long as no directory is removed, and once its sources are known, every
file that its build writes is in a directory that exists. -/
theorem C91_directories_partial {d d1 d2 d3 d4 : Disk} {p : Project} {name : Str} {type : TargetType}
    {tc : Toolchain.Toolchain} {env : TargetEnv} {config : TargetConfig} {m : Made} {srcs : List Str}
    (hw : d.Wf) (hm : newTarget d p name type tc env config = some (m, d1))
    (hk : d1.Keeps d2) (hw2 : d2.Wf) (hs : objectDirs m.fixed d2 srcs = some d3)
    (hk4 : d3.Keeps d4) (hw4 : d4.Wf) (hp : Plain m srcs) :
    ∀ f, Writes m srcs f → DirReady d4 f ∧ DirReady d4 (Path.toPathString f) := by
  simp only [newTarget] at hm
  split at hm
  · rename_i m' hm'
    simp only [Option.map_eq_some_iff, Prod.mk.injEq] at hm
    obtain ⟨e, he, rfl, rfl⟩ := hm
    have hb : m'.buildDir ≠ [] := by
      intro h0
      rw [Disk.createDirectories, if_pos h0] at he
      simp at he
    obtain ⟨w1, -, i1, -⟩ := createDirectories_spec hw he
    obtain ⟨w3, k3, i3, -⟩ := objectDirs_spec hw2 hs
    have kk : e.Keeps d4 := hk.trans (k3.trans hk4)
    have hwalk : ∃ x, d4.walk (d4.start m'.buildDir) (splitSlash m'.buildDir) = some x := by
      rw [kk.start]
      exact ⟨_, kk.walk i1⟩
    obtain ⟨x, hx⟩ := hwalk
    have key : ∀ f, IsName f → DirReady d4 (asDir m'.buildDir ++ f) ∧
        DirReady d4 (Path.toPathString (asDir m'.buildDir ++ f)) := by
      intro f hf
      have := ready_in hw4 hb hf hx
      exact ⟨dirReady_iff.2 ⟨x, this.1⟩, dirReady_iff.2 ⟨x, this.2⟩⟩
    have app : ∀ f, IsName f → DirReady d4 (Path.append m'.buildDir f) ∧
        DirReady d4 (Path.toPathString (Path.append m'.buildDir f)) := by
      intro f hf
      rw [Path.append_rel _ _ (Path.isAbs_noSlash _ hf.2.2.2)]
      exact key f hf
    have rep : ∀ ext, slash ∉ ext →
        DirReady d4 (Path.replaceExtension (Path.pchHeaderPath m'.buildDir m'.toolchain.config.pchHeaderExt) ext) ∧
        DirReady d4 (Path.toPathString
          (Path.replaceExtension (Path.pchHeaderPath m'.buildDir m'.toolchain.config.pchHeaderExt) ext)) := by
      intro ext he
      obtain ⟨f, h1, h2⟩ := pch_replaced m'.buildDir _ ext hp.headerExt he
      rw [h1]; exact key f h2
    intro f hf
    cases hf with
    | object src hsrc =>
      obtain ⟨y, hy⟩ := i3 src hsrc
      have hy4 := hk4.parent hy
      obtain ⟨D, hD, hE⟩ := objPath_parts m'.fixed src hp.objExt
      have hn : IsName (filename src ++ m'.fixed.cfg.objExt) := isName_append (hp.sources src hsrc) hp.objExt
      refine ⟨dirReady_iff.2 ⟨y, hy4⟩, dirReady_iff.2 ⟨y, ?_⟩⟩
      have : d4.walk (d4.start (D ++ (filename src ++ m'.fixed.cfg.objExt))) (splitSlash D) = some y := by
        have h := hy4
        rw [hD, Disk.parent, Path.dirPart_unique _ _ hn.2.2.2 hE] at h
        exact h
      have := (parent_normal hw4 hE hn this).1
      rw [← hD] at this
      exact this
    | output => exact app _ (isName_append hp.name hp.targetExt)
    | state => exact app _ (isName_append hp.name (by decide))
    | pchHeader => exact app _ (pch_name hp.headerExt)
    | pchSource cpp =>
      refine rep _ ?_
      cases cpp <;> decide
    | pchCompiled =>
      refine rep _ ?_
      simp only [List.mem_append, not_or]
      exact ⟨hp.headerExt, hp.compileExt⟩
    | pchObject => exact rep _ hp.objExt
  · simp at hm

/-- Making a target and telling it its sources creates no other directories than those on the way
to the files of the build, and touches no file. -/
theorem C91_created {d d1 d2 : Disk} {p : Project} {name : Str} {type : TargetType}
    {tc : Toolchain.Toolchain} {env : TargetEnv} {config : TargetConfig} {m : Made} {srcs : List Str}
    (hw : d.Wf) (hm : newTarget d p name type tc env config = some (m, d1))
    (hs : objectDirs m.fixed d1 srcs = some d2) (hn : slash ∉ name) :
    d2.file = d.file ∧ d2.cwd = d.cwd ∧
      ∀ x, d2.isDir x = true → d.isDir x = true ∨ ∃ f, Writes m srcs f ∧ OnTheWay d f x := by
  simp only [newTarget] at hm
  split at hm
  · rename_i m' hm'
    simp only [Option.map_eq_some_iff, Prod.mk.injEq] at hm
    obtain ⟨e, he, rfl, rfl⟩ := hm
    obtain ⟨w1, k1, i1, f1⟩ := createDirectories_spec hw he
    obtain ⟨w2, k2, i2, f2⟩ := objectDirs_spec w1 hs
    refine ⟨f2.trans f1, k2.cwd.trans k1.cwd, ?_⟩
    have hname : m'.name = name := by
      simp only [makeTarget] at hm'
      split at hm'
      · simp at hm'
      · split at hm'
        · simp at hm'
        · simp only [Option.some.injEq] at hm'
          rw [← hm']
    have first : ∀ x, e.isDir x = true → d.isDir x = true ∨ ∃ f, Writes m' srcs f ∧ OnTheWay d f x := by
      intro x hx
      have hb : m'.buildDir ≠ [] := by
        intro h0
        rw [Disk.createDirectories, if_pos h0] at he
        simp at he
      rw [Disk.createDirectories, if_neg hb] at he
      refine (mkdirs_only he x hx).imp_right fun hway => ⟨_, .state, ?_⟩
      have hno : slash ∉ m'.name ++ b!".bin" := by
        rw [hname, List.mem_append, not_or]; exact ⟨hn, by decide⟩
      have hne : asDir m'.buildDir ≠ [] := by
        rw [asDir]; split
        · exact hb
        · simp
      rw [OnTheWay, Path.append_rel _ _ (Path.isAbs_noSlash _ hno),
        Path.dirPart_unique _ _ hno (Path.asDir_end _), Path.isAbs_append _ _ hne, isAbs_asDir]
      exact way_comps (comps_asDir _).symm hway
    have rest : ∀ (l : List Str) (c : Disk), l ⊆ srcs → c.cwd = d.cwd → objectDirs m'.fixed c l = some d2 →
        (∀ x, c.isDir x = true → d.isDir x = true ∨ ∃ f, Writes m' srcs f ∧ OnTheWay d f x) →
        ∀ x, d2.isDir x = true → d.isDir x = true ∨ ∃ f, Writes m' srcs f ∧ OnTheWay d f x := by
      intro l
      induction l with
      | nil =>
        intro c _ _ h1 h2
        simp only [objectDirs, Option.some.injEq] at h1
        subst h1; exact h2
      | cons src l ih =>
        intro c hl hc h1 h2
        simp only [objectDirs] at h1
        split at h1
        · rename_i c' hc'
          have hne : dirPart (objPath m'.fixed src) ≠ [] := by
            intro h0
            rw [Disk.createDirectories, if_pos (by simp [Path.parentPath, h0])] at hc'
            simp at hc'
          have hcd : c'.cwd = c.cwd ∧ ∀ x, c'.isDir x = true → c.isDir x = true ∨
              ∃ l1 l2, splitSlash (Path.parentPath (objPath m'.fixed src)) = l1 ++ l2 ∧
                x = resolve (c.start (Path.parentPath (objPath m'.fixed src))) l1 := by
            rw [Disk.createDirectories] at hc'
            split at hc'
            · simp at hc'
            · exact ⟨mkdirs_cwd hc', mkdirs_only hc'⟩
          refine ih c' (fun a ha => hl (List.mem_cons_of_mem _ ha)) (hcd.1.trans hc) h1 ?_
          intro x hx
          rcases hcd.2 x hx with h | h
          · exact h2 x h
          · refine .inr ⟨_, .object src (hl List.mem_cons_self), ?_⟩
            have := way_comps (parentPath_comps _) h
            rw [Disk.start, parentPath_abs, isAbs_dirPart _ hne, hc] at this
            exact this
        · simp at h1
    exact rest srcs e (fun _ h => h) k1.cwd hs first
  · simp at hm

/-- The state of the target can be stored, and is then in the state file. -/
theorem C91_state_partial {d d1 d2 : Disk} {p : Project} {name : Str} {type : TargetType}
    {tc : Toolchain.Toolchain} {env : TargetEnv} {config : TargetConfig} {m : Made}
    (hw : d.Wf) (hm : newTarget d p name type tc env config = some (m, d1))
    (hk : d1.Keeps d2) (hw2 : d2.Wf) (hn : IsName name)
    (hd : ¬ IsDirectory d2 (Path.toPathString (Path.targetStateFile env.buildDir tc.name name))) (text : Str) :
    ∃ e, storeState d2 m text = some e ∧
      HoldsFile e (Path.toPathString (Path.targetStateFile env.buildDir tc.name name)) text := by
  simp only [newTarget] at hm
  split at hm
  · rename_i m' hm'
    simp only [Option.map_eq_some_iff, Prod.mk.injEq] at hm
    obtain ⟨e, he, rfl, rfl⟩ := hm
    have hmk : m'.buildDir = Path.targetBuildDir env.buildDir tc.name name ∧ m'.name = name := by
      simp only [makeTarget] at hm'
      split at hm'
      · simp at hm'
      · split at hm'
        · simp at hm'
        · simp only [Option.some.injEq] at hm'
          rw [← hm']; exact ⟨rfl, rfl⟩
    have hb : m'.buildDir ≠ [] := by
      intro h0
      rw [Disk.createDirectories, if_pos h0] at he
      simp at he
    obtain ⟨w1, -, i1, -⟩ := createDirectories_spec hw he
    have hx := hk.walk i1
    rw [← hk.start] at hx
    have hf : IsName (m'.name ++ b!".bin") := by rw [hmk.2]; exact isName_append hn (by decide)
    have hst : Path.targetStateFile env.buildDir tc.name name = stateFile m' := by
      rw [stateFile, hmk.1, hmk.2]; rfl
    rw [hst] at hd ⊢
    rw [storeState]
    have happ : stateFile m' = asDir m'.buildDir ++ (m'.name ++ b!".bin") :=
      Path.append_rel _ _ (Path.isAbs_noSlash _ hf.2.2.2)
    have h1 := (ready_in hw2 hb hf hx).2
    obtain ⟨-, -, h2, -⟩ := normal_parts _ _ (Path.asDir_end m'.buildDir) hf
    rw [← happ] at h1 h2
    refine ⟨_, saveFile_eq h1 (by rw [h2]; exact hf) ?_, _, dirAt_iff.2 ((parent_put d2 _ _).trans h1), by simp⟩
    rw [Bool.eq_false_iff]
    intro h
    exact hd ⟨_, dirAt_iff.2 h1, h⟩
  · simp at hm

/-- Making a target succeeds exactly when no file is in the way of its build directory. -/
theorem C91_made {d : Disk} (hw : d.Wf) (p : Project) (name : Str) (type : TargetType)
    (tc : Toolchain.Toolchain) (env : TargetEnv) (config : TargetConfig)
    (hp : p.init = true) (ht : type = .executable ∨ type = .staticLibrary ∨ type = .dynamicLibrary)
    (hb : Path.targetBuildDir env.buildDir tc.name name ≠ []) :
    (newTarget d p name type tc env config).isSome = true ↔
      ∀ k, let at_ := resolve (if isAbs (Path.targetBuildDir env.buildDir tc.name name) then [] else d.cwd)
              ((splitSlash (Path.targetBuildDir env.buildDir tc.name name)).take k)
        d.isDir at_ = true ∨ d.file at_ = none := by
  have hv : validType type = true := by rcases ht with rfl | rfl | rfl <;> rfl
  have hm : makeTarget p name type tc env config = some
    { name, type, toolchain := tc, rootDir := env.rootDir
      buildDir := Path.targetBuildDir env.buildDir tc.name name
      config, info := newTargetInfo tc.user } := by
    simp [makeTarget, hp, hv]
  rw [newTarget, hm]
  simp only [Option.isSome_map, Disk.createDirectories, if_neg hb]
  exact mkdirs_isSome hw (hw.start _) _

/-- The state file of a generator, and every output directly in its build directory, is in a
directory that exists. -/
theorem C91_generator_partial {d d1 d2 : Disk} {p : Project} {env : TargetEnv} {name : Str} (hw : d.Wf)
    (h : newGenerator d p env name = some d1) (hk : d1.Keeps d2) (hw2 : d2.Wf) (hn : IsName name) :
    DirReady d2 (Path.toPathString (Path.genStateFile env.buildDir name)) ∧
      (∀ f, IsName f → DirReady d2 (Path.append (Path.genBuildDir env.buildDir name) f)) ∧
      (¬ IsDirectory d2 (Path.toPathString (Path.genStateFile env.buildDir name)) → ∀ text,
        ∃ e, storeGenState d2 env name text = some e ∧
          HoldsFile e (Path.toPathString (Path.genStateFile env.buildDir name)) text) := by
  simp only [newGenerator] at h
  split at h
  · simp at h
  · have hb : Path.genBuildDir env.buildDir name ≠ [] := by
      intro h0
      rw [Disk.createDirectories, if_pos h0] at h
      simp at h
    obtain ⟨w1, -, i1, -⟩ := createDirectories_spec hw h
    have hx := hk.walk i1
    rw [← hk.start] at hx
    have app : ∀ f, IsName f → DirReady d2 (Path.append (Path.genBuildDir env.buildDir name) f) ∧
        DirReady d2 (Path.toPathString (Path.append (Path.genBuildDir env.buildDir name) f)) := by
      intro f hf
      rw [Path.append_rel _ _ (Path.isAbs_noSlash _ hf.2.2.2)]
      have := ready_in hw2 hb hf hx
      exact ⟨dirReady_iff.2 ⟨_, this.1⟩, dirReady_iff.2 ⟨_, this.2⟩⟩
    refine ⟨(app _ (isName_append hn (by decide))).2, fun f hf => (app f hf).1, ?_⟩
    intro hd text
    have hf : IsName (name ++ b!".json") := isName_append hn (by decide)
    have happ : Path.genStateFile env.buildDir name =
        asDir (Path.genBuildDir env.buildDir name) ++ (name ++ b!".json") :=
      Path.append_rel _ _ (Path.isAbs_noSlash _ hf.2.2.2)
    have h1 := (ready_in hw2 hb hf hx).2
    obtain ⟨-, -, h2, -⟩ := normal_parts _ _ (Path.asDir_end (Path.genBuildDir env.buildDir name)) hf
    rw [← happ] at h1 h2
    rw [storeGenState]
    refine ⟨_, saveFile_eq h1 (by rw [h2]; exact hf) ?_, _, dirAt_iff.2 ((parent_put d2 _ _).trans h1), by simp⟩
    rw [Bool.eq_false_iff]
    intro h
    exact hd ⟨_, dirAt_iff.2 h1, h⟩

/-- Once a target has been made in the build directory of the project, `compile_commands.json` can
be saved there. -/
theorem C91_commands {d d1 d2 : Disk} {p : Project} {name : Str} {type : TargetType}
    {tc : Toolchain.Toolchain} {env : TargetEnv} {config : TargetConfig} {m : Made}
    (hw : d.Wf) (hm : newTarget d p name type tc env config = some (m, d1))
    (hk : d1.Keeps d2) (hw2 : d2.Wf) (hb : env.buildDir = p.buildDir) (hne : p.buildDir ≠ [])
    (ht : isAbs tc.name = false) (hn : isAbs name = false)
    (hd : ¬ IsDirectory d2 (Path.toPathString (Path.append p.buildDir b!"compile_commands.json"))) (text : Str) :
    ∃ e, saveCommands d2 p text = some e ∧
      HoldsFile e (Path.toPathString (Path.append p.buildDir b!"compile_commands.json")) text := by
  simp only [newTarget] at hm
  split at hm
  · rename_i m' hm'
    simp only [Option.map_eq_some_iff, Prod.mk.injEq] at hm
    obtain ⟨e, he, rfl, rfl⟩ := hm
    have hbd : m'.buildDir = Path.targetBuildDir p.buildDir tc.name name := by
      simp only [makeTarget] at hm'
      split at hm'
      · simp at hm'
      · split at hm'
        · simp at hm'
        · simp only [Option.some.injEq] at hm'
          rw [← hm', hb]
    obtain ⟨w1, -, i1, -⟩ := createDirectories_spec hw he
    have hx := hk.walk i1
    rw [← hk.start, hbd, Path.targetBuildDir, Path.append_rel _ _ hn, Path.append_rel _ _ ht] at hx
    have hne2 : asDir p.buildDir ≠ [] := by
      rw [asDir]; split
      · exact hne
      · simp
    have split2 : ∀ a t : Str, comps (asDir a ++ t) = comps a ++ comps t := by
      intro a t
      rcases Path.asDir_end a with h | ⟨a', h⟩
      · have : comps a = [] := by rw [← comps_asDir, h]; rfl
        rw [h, this]; rfl
      · rw [← comps_asDir a, h, List.append_assoc]
        rw [comps_end]
        exact comps_slash a' t
    rw [← walk_comps, split2, split2, List.append_assoc, walk_append] at hx
    have hst : d2.start (asDir (asDir p.buildDir ++ tc.name) ++ name) = d2.start p.buildDir := by
      have h1 : asDir (asDir p.buildDir ++ tc.name) ≠ [] := by
        rw [asDir]; split
        · simp [hne2]
        · simp
      rw [Disk.start, Disk.start, Path.isAbs_append _ _ h1, isAbs_asDir, Path.isAbs_append _ _ hne2, isAbs_asDir]
    rw [hst] at hx
    cases hy : d2.walk (d2.start p.buildDir) (comps p.buildDir) with
    | none => rw [hy] at hx; simp at hx
    | some y =>
      rw [walk_comps] at hy
      have hf : IsName b!"compile_commands.json" := ⟨by decide, by decide, by decide, by decide⟩
      have happ : Path.append p.buildDir b!"compile_commands.json" =
          asDir p.buildDir ++ b!"compile_commands.json" := Path.append_rel _ _ (by decide)
      have h1 := (ready_in hw2 hne hf hy).2
      obtain ⟨-, -, h2, -⟩ := normal_parts _ _ (Path.asDir_end p.buildDir) hf
      rw [← happ] at h1 h2
      rw [saveCommands]
      refine ⟨_, saveFile_eq h1 (by rw [h2]; exact hf) ?_, _, dirAt_iff.2 ((parent_put d2 _ _).trans h1), by simp⟩
      rw [Bool.eq_false_iff]
      intro h
      exact hd ⟨_, dirAt_iff.2 h1, h⟩
  · simp at hm

/-- `--clean` removes everything in the build directory and nothing else, and leaves a disk on
which targets can be made. -/
theorem C91_clean {d : Disk} (hw : d.Wf) (p : Project) {at_ : Place}
    (hb : Lookup d (if isAbs p.buildDir then [] else d.cwd) (splitSlash p.buildDir) at_)
    (hc : ¬ at_ <:+ d.cwd) :
    (clean d p).Wf ∧ (clean d p).cwd = d.cwd ∧
      (∀ x, at_ <:+ x → (clean d p).isDir x = false ∧ (clean d p).file x = none) ∧
      ∀ x, ¬ at_ <:+ x → (clean d p).isDir x = d.isDir x ∧ (clean d p).file x = d.file x := by
  have hb' : d.walk (d.start p.buildDir) (splitSlash p.buildDir) = some at_ := lookup_iff.1 hb
  obtain ⟨h1, h2⟩ := removeAll_wf hw (p := p.buildDir) (by
    intro x hx
    rw [hb'] at hx
    simp only [Option.some.injEq] at hx
    rw [← hx]; exact hc)
  refine ⟨h1, h2, ?_, ?_⟩
  · intro x hx
    have : at_.isSuffixOf x = true := List.isSuffixOf_iff_suffix.2 hx
    simp only [clean, Disk.removeAll, hb', this, if_true]
    exact ⟨by simp, trivial⟩
  · intro x hx
    have : at_.isSuffixOf x = false := by
      rw [Bool.eq_false_iff]; intro h; exact hx (List.isSuffixOf_iff_suffix.1 h)
    simp only [clean, Disk.removeAll, hb', this]
    exact ⟨by simp, rfl⟩

/-- A template is written exactly when it can be read and constructed and the directory of its
output exists; the contents are those constructed. -/
theorem C91_template (d : Disk) (cmd : Defaults) (input output : Str) (hf : IsName (filename output)) :
    (∀ e, templateRun d cmd input output = some e →
      DirReady d output ∧ ∃ text s, HoldsFile d input text ∧ construct cmd text [] = .value s ∧
        HoldsFile e output s) ∧
    (¬ DirReady d output → templateRun d cmd input output = none) ∧
    (∀ text s, HoldsFile d input text → construct cmd text [] = .value s → DirReady d output →
      ¬ IsDirectory d output → (templateRun d cmd input output).isSome = true) := by
  have sv : ∀ e s, d.saveFile output s = some e → DirReady d output ∧ HoldsFile e output s := by
    intro e s h
    simp only [Disk.saveFile, Disk.target] at h
    rw [if_neg (by simp [hf.1, hf.2.1, hf.2.2.1])] at h
    cases hx : d.parent output with
    | none => simp [hx] at h
    | some x =>
      simp only [hx] at h
      split at h
      · rename_i a ha
        split at ha
        · simp at ha
        · simp only [Option.some.injEq] at ha h
          subst ha h
          refine ⟨dirReady_iff.2 ⟨x, hx⟩, x, ?_, by simp⟩
          exact dirAt_iff.2 ((parent_put d _ output).trans hx)
      · simp at h
  refine ⟨?_, ?_, ?_⟩
  · intro e h
    simp only [templateRun] at h
    split at h
    · rename_i text ht
      split at h
      · rename_i s hs
        obtain ⟨h1, h2⟩ := sv e s h
        refine ⟨h1, text, s, ?_, hs, h2⟩
        simp only [Disk.load] at ht
        split at ht
        · rename_i a ha; exact ⟨a, dirAt_iff.2 ha, ht⟩
        · simp at ht
      · simp at h
    · simp at h
  · intro hn
    simp only [templateRun]
    split
    · split
      · rename_i s _
        cases h : d.saveFile output s with
        | none => rfl
        | some e => exact absurd (sv e s h).1 hn
      · rfl
    · rfl
  · rintro text s ⟨a, ha, ht⟩ hs hr hd
    obtain ⟨x, hx⟩ := dirReady_iff.1 hr
    have hl : d.load input = some text := by
      rw [Disk.load, dirAt_iff.1 ha]; exact ht
    have hd' : d.isDir (filename output :: x) = false := by
      rw [Bool.eq_false_iff]; intro h; exact hd ⟨x, dirAt_iff.2 hx, h⟩
    simp only [templateRun, hl, hs, Disk.saveFile, Disk.target]
    rw [if_neg (by simp [hf.1, hf.2.1, hf.2.2.1])]
    simp [hx, hd']

/-- The property is false for a target whose name has a `/`: the program and the state file are
in a directory that nothing creates, so the state is not stored. -/
theorem C91_slash_false : ∃ m d1,
    newTarget exDisk exProject b!"sub/hello" .executable (Toolchain.toolchainGcc b!"gcc" none none) exEnv gccExe
      = some (m, d1) ∧ exDisk.Wf ∧
    Writes m [] b!"/p/build/gcc/sub/hello/sub/hello" ∧ ¬ DirReady d1 b!"/p/build/gcc/sub/hello/sub/hello" ∧
    ∀ text, storeState d1 m text = none := by
  obtain ⟨⟨m, d1⟩, h⟩ := Option.isSome_iff_exists.1 (show (newTarget exDisk exProject b!"sub/hello" .executable
    (Toolchain.toolchainGcc b!"gcc" none none) exEnv gccExe).isSome = true by decide +kernel)
  have h1 : (newTarget exDisk exProject b!"sub/hello" .executable (Toolchain.toolchainGcc b!"gcc" none none) exEnv
      gccExe).map (fun x => (x.2.parent b!"/p/build/gcc/sub/hello/sub/hello",
        Path.append x.1.buildDir (x.1.name ++ x.1.config.targetExt), x.2.target (Path.toPathString (stateFile x.1)))) =
      some (none, b!"/p/build/gcc/sub/hello/sub/hello", none) := by decide +kernel
  rw [h] at h1
  simp only [Option.map_some, Option.some.injEq, Prod.mk.injEq] at h1
  obtain ⟨h2, h3, h4⟩ := h1
  refine ⟨m, d1, h, diskOf_wf _ _ _ (by decide), ?_, ?_, ?_⟩
  · rw [← h3]; exact .output
  · rw [dirReady_iff, h2]; simp
  · intro text; simp [storeState, Disk.saveFile, h4]

/-- The property is false for outputs of a generator in a directory below its build directory:
the directory is not created, so a template is not written. -/
theorem C91_output_false : ∃ d1, newGenerator exDisk exProject exEnv b!"gen" = some d1 ∧ exDisk.Wf ∧
    ¬ DirReady d1 b!"/p/build/gen/sub/x.h" ∧
    ∀ cmd, templateRun d1 cmd b!"/p/src/main.cpp" b!"/p/build/gen/sub/x.h" = none := by
  obtain ⟨d1, h⟩ := Option.isSome_iff_exists.1 (show (newGenerator exDisk exProject exEnv b!"gen").isSome = true by
    decide +kernel)
  have h1 : (newGenerator exDisk exProject exEnv b!"gen").map (fun x => x.parent b!"/p/build/gen/sub/x.h") =
      some none := by decide +kernel
  rw [h] at h1
  simp only [Option.map_some, Option.some.injEq] at h1
  have h2 : ¬ DirReady d1 b!"/p/build/gen/sub/x.h" := by rw [dirReady_iff, h1]; simp
  exact ⟨d1, h, diskOf_wf _ _ _ (by decide), h2, fun cmd =>
    (C91_template d1 cmd _ _ ⟨by decide, by decide, by decide, by decide⟩).2.1 h2⟩

/-- The directory and contents of the template, in the case above, when the output is directly in
the build directory. -/
example : ∃ d1, newGenerator exDisk exProject exEnv b!"gen" = some d1 ∧
    DirReady d1 b!"/p/build/gen/x.h" := by
  obtain ⟨d1, h⟩ := Option.isSome_iff_exists.1 (show (newGenerator exDisk exProject exEnv b!"gen").isSome = true by
    decide +kernel)
  have hw : exDisk.Wf := diskOf_wf _ _ _ (by decide)
  have hd1 : d1.Wf := by
    rw [newGenerator, if_neg (by decide)] at h
    exact (createDirectories_spec hw h).1
  exact ⟨d1, h, (C91_generator_partial hw h (.refl d1) hd1 ⟨by decide, by decide, by decide, by decide⟩).2.1 b!"x.h"
    ⟨by decide, by decide, by decide, by decide⟩⟩

/-- A target with a source outside of its root directory. -/
example : ∃ m d1 d2, newTarget exDisk exProject b!"hello" .executable (Toolchain.toolchainGcc b!"gcc" none none)
      exEnv gccExe = some (m, d1) ∧
    objectDirs m.fixed d1 [b!"/p/src/main.cpp", b!"/q/lib.cpp"] = some d2 ∧
    Writes m [b!"/p/src/main.cpp", b!"/q/lib.cpp"] b!"/p/build/gcc/hello/__/q/lib.cpp.o" ∧
    DirReady d2 b!"/p/build/gcc/hello/__/q/lib.cpp.o" ∧ DirReady d2 b!"/p/build/gcc/hello/hello" ∧
    ¬ DirReady d1 b!"/p/build/gcc/hello/__/q/lib.cpp.o" := by
  obtain ⟨⟨m, d1⟩, h⟩ := Option.isSome_iff_exists.1 (show (newTarget exDisk exProject b!"hello" .executable
    (Toolchain.toolchainGcc b!"gcc" none none) exEnv gccExe).isSome = true by decide +kernel)
  have h1 : (newTarget exDisk exProject b!"hello" .executable (Toolchain.toolchainGcc b!"gcc" none none) exEnv
      gccExe).map (fun x => (x.2.parent b!"/p/build/gcc/hello/__/q/lib.cpp.o",
        Path.objectPath x.1.rootDir x.1.buildDir x.1.toolchain.config.objExt b!"/q/lib.cpp",
        Path.append x.1.buildDir (x.1.name ++ x.1.config.targetExt),
        (objectDirs x.1.fixed x.2 [b!"/p/src/main.cpp", b!"/q/lib.cpp"]).isSome)) =
      some (none, b!"/p/build/gcc/hello/__/q/lib.cpp.o", b!"/p/build/gcc/hello/hello", true) := by decide +kernel
  have h5 : (newTarget exDisk exProject b!"hello" .executable (Toolchain.toolchainGcc b!"gcc" none none) exEnv
      gccExe).map (·.1) = makeTarget exProject b!"hello" .executable (Toolchain.toolchainGcc b!"gcc" none none) exEnv
      gccExe := by decide +kernel
  rw [h] at h1 h5
  simp only [Option.map_some, Option.some.injEq, Prod.mk.injEq] at h1 h5
  obtain ⟨h1, h2, h3, h4⟩ := h1
  obtain ⟨d2, h4⟩ := Option.isSome_iff_exists.1 h4
  have hw : exDisk.Wf := diskOf_wf _ _ _ (by decide)
  have hm := h
  simp only [newTarget, ← h5] at hm
  simp only [Option.map_eq_some_iff, Prod.mk.injEq] at hm
  obtain ⟨e, he, -, rfl⟩ := hm
  have hw1 := (createDirectories_spec hw he).1
  have hp : Plain m [b!"/p/src/main.cpp", b!"/q/lib.cpp"] := by
    simp only [makeTarget] at h5
    rw [if_neg (by decide), if_neg (by decide), Option.some.injEq] at h5
    subst h5
    refine ⟨⟨by decide, by decide, by decide, by decide⟩, ?_, by decide, by decide, by decide, by decide⟩
    intro src hs
    simp only [List.mem_cons, List.not_mem_nil, or_false] at hs
    rcases hs with rfl | rfl <;> exact ⟨by decide, by decide, by decide, by decide⟩
  have hall := C91_directories_partial hw h (.refl e) hw1 h4 (.refl d2) (objectDirs_spec hw1 h4).1 hp
  have hwr : Writes m [b!"/p/src/main.cpp", b!"/q/lib.cpp"] b!"/p/build/gcc/hello/__/q/lib.cpp.o" := by
    rw [← h2]; exact .object _ (by simp)
  have hwo : Writes m [b!"/p/src/main.cpp", b!"/q/lib.cpp"] b!"/p/build/gcc/hello/hello" := by
    rw [← h3]; exact .output
  exact ⟨m, e, d2, h, h4, hwr, (hall _ hwr).1, (hall _ hwo).1, by rw [dirReady_iff, h1]; simp⟩

/-- A file in the way of the build directory. -/
example : (newTarget (diskOf [[b!"p"]] [([b!"build", b!"p"], b!"text")] [b!"p"]) exProject b!"hello" .executable
    (Toolchain.toolchainGcc b!"gcc" none none) exEnv gccExe).isSome = false := by decide +kernel

/-- Cleaning. -/
example : ∃ at_, Lookup (diskOf [[b!"x", b!"build", b!"p"]] [] [b!"p"]) [] (splitSlash exProject.buildDir) at_ ∧
    ¬ at_ <:+ [b!"p"] ∧ isAbs exProject.buildDir = true :=
  ⟨[b!"build", b!"p"], lookup_iff.2 (by decide +kernel), by decide, by decide⟩

/-! ## C92: the files that the PCH command reads are there -/

theorem writePch_eq (d : Disk) (fx : Fixed) (u : TargetSchema) (text : Str)
    (ht : pchHeaderText (u.pchs.map (·.path)) = .value text) :
    writePch d fx u =
      match d.saveFile (Path.toPathString (Path.pchHeaderPath fx.buildDir fx.cfg.pchHeaderExt)) text with
      | some d' =>
        if d'.exists (pchSource fx u) then some d'
        else d'.saveFile (Path.displayString (pchSource fx u)) b!"//Generated by BuildCC"
      | none => none := by
  unfold writePch
  generalize pchHeaderText _ = o at ht ⊢
  subst ht; rfl

theorem ext_noSlash (b : Bool) : slash ∉ (if b then b!".cpp" else b!".c") := by
  cases b <;> decide

/-- Before the PCH command is executed, the generated header has the lines of C55 and the source
is there, in directories that exist, when the path of the source has no space.  Nothing else is
changed. -/
theorem C92_files_partial {d : Disk} (hw : d.Wf) (fx : Fixed) (u : TargetSchema)
    (hb : fx.buildDir ≠ []) (hx : slash ∉ fx.cfg.pchHeaderExt)
    (hr : DirReady d (Path.pchHeaderPath fx.buildDir fx.cfg.pchHeaderExt))
    (hh : ¬ IsDirectory d (Path.pchHeaderPath fx.buildDir fx.cfg.pchHeaderExt))
    (hs : c!" " ∉ Path.toPathString (pchSource fx u)) :
    ∃ e, writePch d fx u = some e ∧
      HoldsFile e (Path.toPathString (Path.pchHeaderPath fx.buildDir fx.cfg.pchHeaderExt))
        (includeAll (u.pchs.map (·.path))) ∧
      OnDisk e (Path.toPathString (pchSource fx u)) ∧ e.isDir = d.isDir ∧
      ∃ at_, DirAt d (Path.pchHeaderPath fx.buildDir fx.cfg.pchHeaderExt) at_ ∧
        ∀ y, e.file y = d.file y ∨ y = (b!"buildcc_pch" ++ fx.cfg.pchHeaderExt) :: at_ ∨
          y = filename (pchSource fx u) :: at_ ∧ d.file y = none ∧ e.file y = some b!"//Generated by BuildCC" := by
  have h0 : Path.pchHeaderPath fx.buildDir fx.cfg.pchHeaderExt =
      asDir fx.buildDir ++ (b!"buildcc_pch" ++ fx.cfg.pchHeaderExt) :=
    Path.append_rel _ _ (Path.isAbs_noSlash _ (pch_name hx).2.2.2)
  obtain ⟨f1, h1, n1⟩ : ∃ f, pchSource fx u = asDir fx.buildDir ++ f ∧ IsName f :=
    pch_replaced _ _ _ hx (ext_noSlash (containsCpp fx u))
  have n0 := pch_name hx
  generalize b!"buildcc_pch" ++ fx.cfg.pchHeaderExt = f0 at h0 n0 ⊢
  obtain ⟨x, hx⟩ := dirReady_iff.1 hr
  have hE := Path.asDir_end fx.buildDir
  have hwk : d.walk (d.start (asDir fx.buildDir ++ f0)) (splitSlash (asDir fx.buildDir)) = some x := by
    rw [h0, Disk.parent, Path.dirPart_unique _ _ n0.2.2.2 hE] at hx
    exact hx
  obtain ⟨a1, a2, a3, a4⟩ := parent_normal hw hE n0 hwk
  obtain ⟨b1, b2, b3, b4⟩ := parent_normal hw hE n1 (x := x) (by
    rw [walk_asDir _ _ _ hb, ← walk_asDir _ _ f0 hb]; exact hwk)
  rw [← h0] at a1 a2 a3 a4
  rw [← h1] at b1 b2 b3 b4
  have hd0 : d.isDir (f0 :: x) = false := by
    rw [Bool.eq_false_iff]; intro h
    exact hh ⟨x, dirAt_iff.2 a3, by rw [a4]; exact h⟩
  have ht : pchHeaderText (u.pchs.map (·.path)) = .value (includeAll (u.pchs.map (·.path))) := pch_header_text _
  generalize includeAll (u.pchs.map (·.path)) = text at ht ⊢
  rw [writePch_eq d fx u text ht]
  rw [saveFile_eq a1 (by rw [a2]; exact n0) (by rw [a2]; exact hd0)]
  simp only [a2]
  generalize hg : (fun y => if y = f0 :: x then some text else d.file y) = g
  have g0 : g (f0 :: x) = some text := by rw [← hg]; simp
  have g1 : ∀ y, g y = d.file y ∨ y = f0 :: x := by
    intro y
    rw [← hg]
    by_cases h : y = f0 :: x
    · exact .inr h
    · left; simp [h]
  split
  · rename_i hex
    refine ⟨_, rfl, ⟨x, dirAt_iff.2 ((parent_put d g _).trans a1), by rw [a2]; exact g0⟩, ?_, rfl,
      x, dirAt_iff.2 a3, fun y => (g1 y).imp_right .inl⟩
    rw [onDisk_iff, Disk.exists, parent_put, b1, b2]
    rw [Disk.exists, parent_put, b3, b4] at hex
    exact hex
  · rename_i hex
    rw [Disk.exists, parent_put, b3, b4] at hex
    simp only [Bool.or_eq_true, not_or, Bool.not_eq_true] at hex
    have hne : f0 ≠ f1 := by
      rintro rfl
      rw [g0] at hex
      simp at hex
    rw [Path.displayString, if_neg hs]
    rw [saveFile_eq ((parent_put d g _).trans b1) (by rw [b2]; exact n1) (by rw [b2]; exact hex.1)]
    refine ⟨_, rfl, ⟨x, dirAt_iff.2 ((parent_put d _ _).trans a1), ?_⟩, ?_, rfl, x, dirAt_iff.2 a3, ?_⟩
    · rw [a2, b2]
      simp only [List.cons.injEq, hne, false_and, if_false]
      exact g0
    · refine ⟨x, dirAt_iff.2 ((parent_put d _ _).trans b1), .inr ?_⟩
      simp
    · intro y
      simp only [b2, b4]
      by_cases h : y = f1 :: x
      · subst h
        rcases g1 (f1 :: x) with h | h
        · refine .inr (.inr ⟨rfl, ?_, by simp⟩)
          rw [← h]; simpa using hex.2
        · simp only [List.cons.injEq, and_true] at h
          exact absurd h.symm hne
      · rw [if_neg h]; exact (g1 y).imp_right .inl

/-- The property is false when the path of the build directory has a space: the source is saved
under its name in double quotes, which is a path relative to the working directory.  Unless there
is a directory whose name is a double quote, or the source is there already, nothing is
compiled. -/
theorem C92_space_false (d : Disk) (fx : Fixed) (u : TargetSchema)
    (ha : isAbs fx.buildDir = true) (hx : slash ∉ fx.cfg.pchHeaderExt)
    (hs : c!" " ∈ Path.toPathString (pchSource fx u))
    (hn : filename (pchSource fx u) ≠ b!"buildcc_pch" ++ fx.cfg.pchHeaderExt)
    (ho : ¬ OnDisk d (pchSource fx u)) (hq : d.isDir (b!"\"" :: d.cwd) = false) :
    writePch d fx u = none := by
  have hb : fx.buildDir ≠ [] := by intro h; rw [h] at ha; simp [isAbs] at ha
  have hne : asDir fx.buildDir ≠ [] := by
    rw [asDir]; split
    · exact hb
    · simp
  obtain ⟨f1, h1, n1⟩ : ∃ f, pchSource fx u = asDir fx.buildDir ++ f ∧ IsName f :=
    pch_replaced _ _ _ hx (ext_noSlash (containsCpp fx u))
  have h0 : Path.pchHeaderPath fx.buildDir fx.cfg.pchHeaderExt =
      asDir fx.buildDir ++ (b!"buildcc_pch" ++ fx.cfg.pchHeaderExt) :=
    Path.append_rel _ _ (Path.isAbs_noSlash _ (pch_name hx).2.2.2)
  have hE := Path.asDir_end fx.buildDir
  obtain ⟨-, -, p1, -⟩ := normal_parts _ _ hE (pch_name hx)
  rw [← h0] at p1
  obtain ⟨-, -, -, p2, -⟩ := normal_parts _ _ hE n1
  rw [← h1, show isAbs (pchSource fx u) = true by rw [h1, Path.isAbs_append _ _ hne, isAbs_asDir]; exact ha] at p2
  obtain ⟨r, hr⟩ : ∃ r, Path.toPathString (pchSource fx u) = slash :: r := by
    cases h : Path.toPathString (pchSource fx u) with
    | nil => rw [h] at p2; simp [isAbs] at p2
    | cons b r =>
      rw [h] at p2
      simp only [isAbs, decide_eq_true_eq] at p2
      exact ⟨r, by rw [p2]⟩
  have hno : ∀ (g : Place → Option Str) (t : Str),
      ({ d with file := g } : Disk).saveFile (Path.displayString (pchSource fx u)) t = none := by
    intro g t
    have hp : d.parent (Path.displayString (pchSource fx u)) = none := by
      rw [Path.displayString, if_pos hs, hr]
      have e : c!"\"" :: (slash :: r ++ [c!"\""]) = [c!"\"", slash] ++ (r ++ [c!"\""]) := by simp
      rw [e, Disk.parent, (Path.splitFile_prefix [c!"\"", slash] _ (.inr ⟨[c!"\""], rfl⟩)).1]
      have e2 : [c!"\"", slash] ++ dirPart (r ++ [c!"\""]) = [c!"\""] ++ slash :: dirPart (r ++ [c!"\""]) := rfl
      rw [e2, Path.splitSlash_append]
      have e3 : splitSlash [c!"\""] = [b!"\""] := by decide
      have e4 : d.start ([c!"\"", slash] ++ (r ++ [c!"\""])) = d.cwd := by
        rw [Disk.start, if_neg (by simp [isAbs]; decide)]
      rw [e3, e4, List.singleton_append, Disk.walk, if_neg (by decide), if_neg (by decide), hq]
      rfl
    rw [Disk.saveFile, Disk.target, parent_put, hp]
    split
    · rename_i h
      split at h <;> simp at h
    · rfl
  have ht : pchHeaderText (u.pchs.map (·.path)) = .value (includeAll (u.pchs.map (·.path))) := pch_header_text _
  generalize includeAll (u.pchs.map (·.path)) = text at ht
  rw [writePch_eq d fx u text ht]
  split
  · rename_i d' hd'
    rw [Disk.saveFile, Disk.target, p1] at hd'
    rw [if_neg (by
      simp only [not_or]
      exact ⟨(pch_name hx).1, (pch_name hx).2.1, (pch_name hx).2.2.1⟩)] at hd'
    cases hpar : d.parent (Path.toPathString (Path.pchHeaderPath fx.buildDir fx.cfg.pchHeaderExt)) with
    | none => simp [hpar] at hd'
    | some x =>
      simp only [hpar] at hd'
      split at hd'
      · rename_i y hy
        split at hy
        · simp at hy
        · simp only [Option.some.injEq] at hy hd'
          subst hy hd'
          rw [if_neg, hno]
          rw [onDisk_iff] at ho
          intro h
          apply ho
          rw [Disk.exists, parent_put] at h
          rw [Disk.exists]
          cases hps : d.parent (pchSource fx u) with
          | none => rw [hps] at h; exact h
          | some z =>
            rw [hps] at h
            simp only [List.cons.injEq, hn, false_and, if_false] at h
            exact h
      · simp at hd'
  · rfl

/-- C92, exactly: in a build directory without the source, and without a directory whose name is a double
quote, the two files are written if and only if the path of the source has no space. -/
theorem C92_exact {d : Disk} (hw : d.Wf) (fx : Fixed) (u : TargetSchema)
    (ha : isAbs fx.buildDir = true) (hx : slash ∉ fx.cfg.pchHeaderExt)
    (hr : DirReady d (Path.pchHeaderPath fx.buildDir fx.cfg.pchHeaderExt))
    (hh : ¬ IsDirectory d (Path.pchHeaderPath fx.buildDir fx.cfg.pchHeaderExt))
    (hn : filename (pchSource fx u) ≠ b!"buildcc_pch" ++ fx.cfg.pchHeaderExt)
    (ho : ¬ OnDisk d (pchSource fx u)) (hq : d.isDir (b!"\"" :: d.cwd) = false) :
    (∃ e, writePch d fx u = some e ∧
      HoldsFile e (Path.toPathString (Path.pchHeaderPath fx.buildDir fx.cfg.pchHeaderExt))
        (includeAll (u.pchs.map (·.path))) ∧
      OnDisk e (Path.toPathString (pchSource fx u))) ↔ c!" " ∉ Path.toPathString (pchSource fx u) := by
  constructor
  · rintro ⟨e, he, -⟩ hs
    rw [C92_space_false d fx u ha hx hs hn ho hq] at he
    cases he
  · intro hs
    obtain ⟨e, h1, h2, h3, -⟩ := C92_files_partial hw fx u (by intro h; rw [h] at ha; simp [isAbs] at ha) hx hr hh hs
    exact ⟨e, h1, h2, h3⟩

/-- A target with a precompiled header in `/my p`. -/
def spaceTarget : Fixed :=
  ⟨b!"hello", b!"/my p", b!"/my p/build/gcc/hello", Toolchain.gccConfig, ⟨[], [], [], [], []⟩, gccExe⟩

example : isAbs spaceTarget.buildDir = true ∧ slash ∉ spaceTarget.cfg.pchHeaderExt ∧
    c!" " ∈ Path.toPathString (pchSource spaceTarget TargetSchema.empty) ∧
    filename (pchSource spaceTarget TargetSchema.empty) ≠ b!"buildcc_pch" ++ spaceTarget.cfg.pchHeaderExt ∧
    (diskOf [[b!"hello", b!"gcc", b!"build", b!"my p"]] [] [b!"my p"]).exists
      (pchSource spaceTarget TargetSchema.empty) = false ∧
    (diskOf [[b!"hello", b!"gcc", b!"build", b!"my p"]] [] [b!"my p"]).isDir [b!"\"", b!"my p"] = false ∧
    ((diskOf [[b!"hello", b!"gcc", b!"build", b!"my p"]] [] [b!"my p"]).parent
      (Path.pchHeaderPath spaceTarget.buildDir spaceTarget.cfg.pchHeaderExt)).isSome = true := by decide +kernel

/-- The same without a space. -/
example : (writePch (diskOf [[b!"hello", b!"gcc", b!"build", b!"p"]] [] [b!"p"])
    { spaceTarget with buildDir := b!"/p/build/gcc/hello" } TargetSchema.empty).map
      (fun e => (e.load b!"/p/build/gcc/hello/buildcc_pch.c").isSome &&
        (e.load b!"/p/build/gcc/hello/buildcc_pch.h").isSome) = some true := by decide +kernel

end Verif.Disk
