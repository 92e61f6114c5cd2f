import Verif.Boot.Props
import Verif.Boot.Includes
import Verif.Reg.ProjectExamples

/-! # Headers the bootstrap script does not know (C85), and an example -/

namespace Verif.Boot
open Verif Verif.Schema Verif.Target Verif.Toolchain Verif.Path
open Verif.Reg (Absolute ScriptTarget PlainScript Placed notInside)

/-- Directories with headers of the library that are not in the script: the script lists
directories, and not the directories in them. -/
def forgottenDirs : List Str :=
  [b!"lib/args/include/args/register", b!"lib/target/include/target/custom_generator"]

theorem forgottenDirs_new : ∀ d ∈ forgottenDirs, Rel d ∧ d ∉ headerDirs ∧ d ∉ sourceDirs := by
  decide +kernel

theorem apart_dirs {root a b x y : Str} (ha : slash ∉ a) (hb : slash ∉ b)
    (h : root ++ b!"/" ++ a ++ b!"/" ++ x = root ++ b!"/" ++ b ++ b!"/" ++ y) : a = b := by
  have h1 : a ++ slash :: x = b ++ slash :: y := by
    have : root ++ b!"/" ++ (a ++ slash :: x) = root ++ b!"/" ++ (b ++ slash :: y) := by
      simpa [slash] using h
    exact List.append_cancel_left this
  have := congrArg splitSlash h1
  rw [splitSlash_append, splitSlash_append, splitSlash_noSlash a ha, splitSlash_noSlash b hb] at this
  simp at this
  exact this.1

/-- C85: the headers of these directories are not among the files of any target of the script.
So a change of one of them rebuilds nothing (`args/register.h` includes
`args/register/test_info.h`). -/
theorem C85_forgotten_false {junk : Nat → TargetSchema} {p : Project}
    {list : Str → Option (List Str)} {tc : Toolchain} {t : Targets}
    (h : script junk p list tc = some t) (hc : Checkout p list tc) :
    ∀ c, c = t.tpl.cfg ∨ c = t.buildcc.cfg ∨ c = t.example_.cfg → ∀ d ∈ forgottenDirs, ∀ f,
      PlainName f → p.rootDir ++ b!"/" ++ b!"buildcc" ++ b!"/" ++ d ++ b!"/" ++ f ∉
        Reg.given c ++ paths c.libs := by
  intro c hcc d hd f hf
  obtain ⟨⟨ts, th, tl⟩, ⟨bs, bh, bl⟩, ⟨es, eh, el⟩, rest⟩ := C85_inputs h
  have hp := C85_plain h hc [] [] []
  obtain ⟨hdr, hnh, hns⟩ := forgottenDirs_new d hd
  have tdir := third_path hc.root (dir := b!"tiny-process-library") (by decide)
  have bdir := below hc.root (r := b!"buildcc") (by decide +kernel)
  have edir := below hc.root (r := b!"example/hybrid/simple") (by decide +kernel)
  have edir' : Absolute (append p.rootDir b!"example/hybrid/simple") := by rw [edir.1]; exact edir.2
  have bdir' : Absolute (append p.rootDir b!"buildcc") := by rw [bdir.1]; exact bdir.2
  have assoc : p.rootDir ++ b!"/" ++ b!"buildcc" ++ b!"/" ++ d ++ b!"/" ++ f =
      p.rootDir ++ b!"/" ++ b!"buildcc" ++ b!"/" ++ (d ++ b!"/" ++ f) := by simp
  -- files of third_party
  have nthird : ∀ x, p.rootDir ++ b!"/" ++ b!"buildcc" ++ b!"/" ++ d ++ b!"/" ++ f ≠
      p.rootDir ++ b!"/" ++ b!"third_party" ++ b!"/" ++ x := by
    intro x e
    rw [assoc] at e
    exact absurd (apart_dirs (by decide) (by decide) e) (by decide)
  have ntpl : ∀ g, PlainName g → p.rootDir ++ b!"/" ++ b!"buildcc" ++ b!"/" ++ d ++ b!"/" ++ f ≠
      toPathString (append (append (third p.rootDir b!"tiny-process-library") []) g) := by
    intro g hg e
    have := inDir_path tdir.2 (.inl rfl) hg (d := [])
    simp only [inDir, if_true] at this
    rw [this.1, tdir.1] at e
    exact nthird (b!"tiny-process-library" ++ b!"/" ++ g) (by simpa using e)
  have nth : p.rootDir ++ b!"/" ++ b!"buildcc" ++ b!"/" ++ d ++ b!"/" ++ f ∉
      paths t.tpl.cfg.headers := by
    rw [th, List.mem_singleton]
    exact ntpl _ (by decide)
  have nfiles : ∀ dirs : List Str, (∀ x ∈ dirs, x = [] ∨ Rel x) → d ∉ dirs → ∀ keep,
      p.rootDir ++ b!"/" ++ b!"buildcc" ++ b!"/" ++ d ++ b!"/" ++ f ∉
        filesOf list (append p.rootDir b!"buildcc") keep dirs := by
    intro dirs hdirs hnd keep hm
    obtain ⟨d', hd', f', hf', -, e⟩ := mem_filesOf hc.listing bdir' hdirs hm
    rw [assoc, bdir.1] at e
    have e2 := List.append_cancel_left e
    rcases hdirs d' hd' with rfl | hr
    · simp only [inDir, if_true] at e2
      exact hf'.2.2.2 (by rw [← e2]; simp [slash])
    · have e3 : inDir d f = inDir d' f' := by rw [← e2, inDir, if_neg hdr.ne]
      exact hnd ((inDir_inj hf hf' hdr hr e3).1 ▸ hd')
  have nbh : p.rootDir ++ b!"/" ++ b!"buildcc" ++ b!"/" ++ d ++ b!"/" ++ f ∉
      paths t.buildcc.cfg.headers := by
    rw [bh, List.mem_append, List.mem_append]
    rintro ((hx | hx) | hx)
    · exact nfiles headerDirs headerDirs_rel hnh _ hx
    · obtain ⟨y, hy, hx⟩ := List.mem_flatMap.1 hx
      have hy' := thirdParty_rel y hy
      have yd := third_path hc.root hy'.1
      obtain ⟨d', -, f', -, -, e⟩ := mem_filesOf hc.listing yd.2 (fun d hd => .inr (hy'.2 d hd)) hx
      rw [yd.1] at e
      exact nthird (y.1 ++ b!"/" ++ inDir d' f') (by simpa using e)
    · exact nth hx
  -- libraries are in the build directory
  have nlib : ∀ x ∈ targets t [] [] [], p.rootDir ++ b!"/" ++ b!"buildcc" ++ b!"/" ++ d ++ b!"/" ++ f ≠
      toPathString x.output := by
    intro x hx e
    have pl := hp.placed hx
    rw [pl.output.2.2.1, pl.output.1, assoc] at e
    have := Reg.plain_ext pl.name pl.ext
    refine hc.apart b!"buildcc" (by simp) (d ++ b!"/" ++ f) ?_
    rw [e]
    exact Reg.inside_trans pl.abs.1.last pl.abs.2 (Reg.inside_name this.2.2.1 this.2.2.2)
  obtain ⟨r1, r2, r3⟩ := rest c hcc
  simp only [Reg.given, r1, r2, r3, List.append_nil]
  rw [List.mem_append, List.mem_append]
  rcases hcc with rfl | rfl | rfl
  · rintro ((hx | hx) | hx)
    · simp only [ts, List.mem_cons, List.not_mem_nil, or_false] at hx
      rcases hx with hx | hx
      · exact ntpl _ (by decide) hx
      · exact ntpl _ (by decide) hx
    · exact nth hx
    · rw [tl] at hx; simp at hx
  · rintro ((hx | hx) | hx)
    · rw [bs] at hx
      exact nfiles sourceDirs (fun x hx => .inr (sourceDirs_rel x hx)) hns _ hx
    · exact nbh hx
    · rw [bl, List.mem_singleton] at hx
      exact nlib ⟨t.tpl.made, t.tpl.cfg, []⟩ (by simp [targets]) hx
  · rintro ((hx | hx) | hx)
    · rw [es, List.mem_singleton] at hx
      have := inDir_path edir' (.inl rfl) (d := []) (f := b!"build.cpp") (by decide)
      simp only [inDir, if_true] at this
      rw [this.1, edir.1, assoc] at hx
      have hx' : p.rootDir ++ b!"/" ++ b!"buildcc" ++ b!"/" ++ (d ++ b!"/" ++ f) =
          p.rootDir ++ b!"/" ++ b!"example" ++ b!"/" ++ b!"hybrid/simple/build.cpp" := by
        rw [hx]; simp
      exact absurd (apart_dirs (by decide) (by decide) hx') (by decide)
    · rw [eh] at hx; exact nbh hx
    · rw [el] at hx
      simp only [List.mem_cons, List.not_mem_nil, or_false] at hx
      rcases hx with hx | hx
      · exact nlib ⟨t.buildcc.made, t.buildcc.cfg, []⟩ (by simp [targets]) hx
      · exact nlib ⟨t.tpl.made, t.tpl.cfg, []⟩ (by simp [targets]) hx

/-! ## An example -/

def exRepo : Project := ⟨true, b!"/r", b!"/r/_build"⟩

/-- A small checkout: `env` has one source and one header. -/
def exList (d : Str) : Option (List Str) :=
  if d = b!"/r/buildcc/lib/env/src" then some [b!"command.cpp", b!"CMakeLists.txt"]
  else if d = b!"/r/buildcc/lib/env/include/env" then some [b!"command.h"]
  else some []

theorem exCheckout : Checkout exRepo exList exGcc where
  root := by decide
  build := by decide
  apart := by
    intro d hd t
    refine notInside (by decide) ?_
    revert hd d
    simp only [List.mem_cons, List.not_mem_nil, or_false, forall_eq_or_imp, forall_eq]
    refine ⟨?_, ?_, ?_⟩ <;> simp [exRepo, List.isPrefixOf, slash]
  name := by decide
  exts := ⟨⟨b!"o", by decide +kernel⟩, ⟨b!"h", by decide +kernel⟩, ⟨b!"gch", by decide +kernel⟩⟩
  listing := by
    intro d l h
    simp only [exList] at h
    split at h
    · cases h; decide
    · split at h
      · cases h; decide
      · cases h; simp

def exTargets : Targets :=
  (script (fun _ => TargetSchema.empty) exRepo exList exGcc).getD
    ⟨⟨Reg.exNoMade, .empty⟩, ⟨Reg.exNoMade, .empty⟩, ⟨Reg.exNoMade, .empty⟩⟩

theorem exTargets_script : script (fun _ => TargetSchema.empty) exRepo exList exGcc =
    some exTargets := by
  have : (script (fun _ => TargetSchema.empty) exRepo exList exGcc).isSome = true := by
    decide +kernel
  obtain ⟨x, hx⟩ := Option.isSome_iff_exists.1 this
  rw [exTargets, hx, Option.getD_some]

example : (paths exTargets.buildcc.cfg.sources, paths exTargets.buildcc.cfg.headers,
      exTargets.buildcc.cfg.externalLibs, paths exTargets.example_.cfg.libs) =
    ([b!"/r/buildcc/lib/env/src/command.cpp"],
      [b!"/r/buildcc/lib/env/include/env/command.h", b!"/r/third_party/tiny-process-library/process.hpp"],
      [b!"-lpthread"],
      [b!"/r/_build/gcc/libbuildcc/libbuildcc.a", b!"/r/_build/gcc/libtpl/libtpl.a"]) := by
  decide +kernel

example : exTargets.example_.cfg.includeDirs = exTargets.buildcc.cfg.includeDirs ∧
    b!"/r/buildcc/schema/include" ∈ exTargets.buildcc.cfg.includeDirs ∧
    exTargets.example_.cfg.externalLibs = [b!"-lpthread"] := by
  obtain ⟨-, h1, h2, -, -, -, -, -, -, -, -, -, h3⟩ := C85_includes exTargets_script
  refine ⟨h2, ?_, h3⟩
  rw [h1]
  decide +kernel

def exBuilt : List ScriptTarget := targets exTargets
  [b!"/r/third_party/tiny-process-library/process.cpp",
    b!"/r/third_party/tiny-process-library/process_unix.cpp"]
  [b!"/r/buildcc/lib/env/src/command.cpp"] [b!"/r/example/hybrid/simple/build.cpp"]

def exBootScript : Reg.Script :=
  ⟨⟨[b!"[gcc] libtpl", b!"[gcc] libbuildcc", b!"[gcc] buildcc_hybrid_simple_example"],
    [(b!"[gcc] libtpl", b!"[gcc] libbuildcc"),
      (b!"[gcc] libbuildcc", b!"[gcc] buildcc_hybrid_simple_example")], []⟩,
    [1, 2, 3, 4, 5, 6, 7, 8]⟩

/-- A first build; then a header of the library is edited. -/
def exBootHistory : List Reg.WEvent :=
  [.edit b!"/r/third_party/tiny-process-library/process.cpp" 1,
    .edit b!"/r/third_party/tiny-process-library/process_unix.cpp" 1,
    .edit b!"/r/third_party/tiny-process-library/process.hpp" 1,
    .edit b!"/r/buildcc/lib/env/src/command.cpp" 1,
    .edit b!"/r/buildcc/lib/env/include/env/command.h" 1,
    .edit b!"/r/example/hybrid/simple/build.cpp" 1,
    .launch exBootScript.graph (Reg.setupOf exBuilt),
    .begin b!"[gcc] libtpl", .task b!"[gcc] libtpl" (.t .objTask) [],
    .task b!"[gcc] libtpl" (.t (.exec 0 true none)) [], .task b!"[gcc] libtpl" (.t (.add 0)) [],
    .task b!"[gcc] libtpl" (.t (.exec 0 true none)) [], .task b!"[gcc] libtpl" (.t (.add 0)) [],
    .task b!"[gcc] libtpl" (.t .linkTask) [],
    .task b!"[gcc] libtpl" (.t (.linkExec true none)) [(b!"/r/_build/gcc/libtpl/libtpl.a", some 2)],
    .task b!"[gcc] libtpl" (.t (.finish true)) []] ++
  Reg.exTargetTasks b!"[gcc] libbuildcc" b!"/r/_build/gcc/libbuildcc/libbuildcc.a" 3 ++
  Reg.exTargetTasks b!"[gcc] buildcc_hybrid_simple_example"
    b!"/r/_build/gcc/buildcc_hybrid_simple_example/buildcc_hybrid_simple_example" 4 ++
  [.join, .edit b!"/r/buildcc/lib/env/include/env/command.h" 5,
    .launch exBootScript.graph (Reg.setupOf exBuilt),
    .begin b!"[gcc] libtpl", .task b!"[gcc] libtpl" (.t .objTask) [],
    .task b!"[gcc] libtpl" (.t .linkTask) [], .task b!"[gcc] libtpl" (.t (.finish true)) []] ++
  Reg.exTargetTasks b!"[gcc] libbuildcc" b!"/r/_build/gcc/libbuildcc/libbuildcc.a" 6 ++
  Reg.exTargetTasks b!"[gcc] buildcc_hybrid_simple_example"
    b!"/r/_build/gcc/buildcc_hybrid_simple_example/buildcc_hybrid_simple_example" 7

theorem exBootHistory_script : Reg.AllOfScript exBootScript.graph (Reg.setupOf exBuilt)
    (Reg.World.init (Reg.kindsOf exBuilt)) exBootHistory := by
  refine Reg.allOfScript_of _ ?_ (by decide +kernel)
  intro g' s' hm
  simp only [exBootHistory, Reg.exTargetTasks, List.mem_append,
    List.mem_cons, List.not_mem_nil, reduceCtorEq, false_or, or_false,
    Reg.WEvent.launch.injEq] at hm
  rcases hm with ⟨rfl, rfl⟩ | ⟨rfl, rfl⟩ <;> exact ⟨rfl, fun j _ => Reg.SameSetup.refl _⟩

/-- The second run succeeds, and the example is linked with the new library. -/
example : ∃ l, l = outputPath exTargets.buildcc.made.fixed ∧
    Reg.LinkedWith (((Reg.World.init (Reg.kindsOf exBuilt)).steps exBootHistory).step .join)
      (targetId b!"gcc" exTargets.buildcc.made.name)
      (targetId b!"gcc" b!"buildcc_hybrid_simple_example") l := by
  refine ⟨_, rfl, (C85_built exTargets_script exCheckout _ _ _ (n := 0) (clean := false)
    (test := false) (s := exBootScript) (by decide +kernel) rfl exBootHistory_script
    (by decide +kernel) (by decide +kernel) (by decide +kernel)).2 exTargets.buildcc (by simp) ?_⟩
  have hout : outputPath exTargets.buildcc.made.fixed =
      b!"/r/_build/gcc/libbuildcc/libbuildcc.a" := by decide +kernel
  rw [hout]
  intro e he
  refine ⟨fun t h => ?_, fun h => ?_⟩
  · subst h
    simp only [exBootHistory, Reg.exTargetTasks, List.mem_append, List.mem_cons, List.not_mem_nil,
      reduceCtorEq, false_or, or_false, Reg.WEvent.edit.injEq] at he
    rcases he with (hh | hh | hh | hh | hh | hh) | hh <;> exact absurd hh.1 (by decide +kernel)
  · subst h
    simp [exBootHistory, Reg.exTargetTasks] at he

/-- The stamps of the libraries: `libtpl` is that of the first build, `libbuildcc` of the second. -/
example : ((((Reg.World.init (Reg.kindsOf exBuilt)).steps exBootHistory).step .join).comps
    b!"[gcc] buildcc_hybrid_simple_example").bin.map (·.libs) =
      some [(b!"/r/_build/gcc/libbuildcc/libbuildcc.a", some b!"6"),
        (b!"/r/_build/gcc/libtpl/libtpl.a", some b!"2")] := by decide +kernel

/-- A header that the example of C85_forgotten_false is about. -/
example : b!"/r/buildcc/lib/args/include/args/register/test_info.h" ∉
    Reg.given exTargets.buildcc.cfg ++ paths exTargets.buildcc.cfg.libs :=
  C85_forgotten_false exTargets_script exCheckout _ (.inr (.inl rfl))
    b!"lib/args/include/args/register" (by decide) b!"test_info.h" (by decide)

end Verif.Boot
