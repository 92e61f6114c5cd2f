import Verif.Disk.Props
import Verif.Path.Generators

/-!
# Targets with a `/` in their name (C91)

Exactly when the state of such a target is stored.
-/

namespace Verif.Disk
open Verif Verif.Schema Verif.Target Verif.Command
open Verif.Path (splitSlash dirPart filename isAbs slash dot dotdot IsName asDir joinSlash PlainName)

/-! ## Proofs -/

/-- The path with these names from the root. -/
def rootPath (l : List Str) : Str := slash :: joinSlash l

theorem rootPath_split (l : List Str) (hl : l ≠ []) (h : ∀ c ∈ l, IsName c) :
    splitSlash (rootPath l) = [] :: l := by
  rw [rootPath, show slash :: joinSlash l = [] ++ slash :: joinSlash l from rfl, Path.splitSlash_append,
    Path.splitSlash_joinSlash l hl fun c hc => (h c hc).2.2.2]
  rfl

theorem rootPath_normal (l : List Str) (hl : l ≠ []) (h : ∀ c ∈ l, IsName c) :
    Path.toPathString (rootPath l) = rootPath l := by
  have e : rootPath l = Path.render true ⟨l.reverse, false⟩ := by
    cases hr : l.reverse with
    | nil => exact absurd (by simpa using hr) hl
    | cons top rest =>
      simp only [Path.render]
      rw [← hr, List.reverse_reverse]
      simp [rootPath]
  rw [Path.toPathString, e]
  exact Path.lexNormal_render true _ ⟨l.reverse, 0, by simp, fun c hc => h c (by simpa using hc), fun _ => rfl⟩

theorem rootPath_last (l : List Str) (c : Str) (hl : l ≠ []) (hc : slash ∉ c) :
    dirPart (rootPath (l ++ [c])) = rootPath l ++ [slash] ∧ filename (rootPath (l ++ [c])) = c := by
  have e : rootPath (l ++ [c]) = (rootPath l ++ [slash]) ++ c := by
    rw [rootPath, Path.joinSlash_append l [c] hl (by simp), rootPath]
    simp [joinSlash]
  rw [e]
  exact ⟨Path.dirPart_unique _ _ hc (.inr ⟨_, rfl⟩), Path.filename_unique _ _ hc (.inr ⟨_, rfl⟩)⟩

theorem rootPath_append (l m : List Str) (hl : l ≠ []) (hm : m ≠ []) (pl : ∀ c ∈ l, IsName c)
    (pm : ∀ c ∈ m, IsName c) : Path.append (rootPath l) (joinSlash m) = rootPath (l ++ m) := by
  have ha : isAbs (joinSlash m) = false := by
    have := Path.isAbs_joinSlash m (fun c hc => (pm c hc).2.2.2) (fun c hc => (pm c hc).1) [] hm
    simpa using this
  have hf : filename (rootPath l) ≠ [] := by
    obtain ⟨k, c, rfl⟩ : ∃ k c, l = k ++ [c] := ⟨l.dropLast, l.getLast hl, (List.dropLast_concat_getLast hl).symm⟩
    have hc := pl c (by simp)
    have : filename (rootPath (k ++ [c])) = c := by
      cases k with
      | nil => exact Path.filename_unique [slash] c hc.2.2.2 (.inr ⟨[], rfl⟩)
      | cons x k => exact (rootPath_last (x :: k) c (by simp) hc.2.2.2).2
    rw [this]; exact hc.1
  rw [Path.append_rel _ _ ha, asDir, if_neg hf, rootPath, rootPath, Path.joinSlash_append l m hl hm]
  simp

theorem rootPath_parent {d : Disk} (hw : d.Wf) (l : List Str) (c : Str) (hl : l ≠ []) (pl : ∀ c ∈ l, IsName c)
    (hc : slash ∉ c) (x : Place) :
    d.parent (rootPath (l ++ [c])) = some x ↔ x = l.reverse ∧ d.isDir l.reverse = true := by
  have e : d.parent (rootPath (l ++ [c])) = d.walk [] l := by
    rw [Disk.parent, (rootPath_last l c hl hc).1,
      show rootPath l ++ [slash] = rootPath l ++ slash :: [] from rfl, Path.splitSlash_append,
      rootPath_split l hl pl]
    have : d.start (rootPath (l ++ [c])) = [] := by simp [Disk.start, rootPath, isAbs]
    rw [this, List.cons_append, walk_skip]
    exact walk_skip_end d [] l 1
  rw [e]
  constructor
  · intro h
    have hx := walk_resolve h
    rw [resolve_names l [] pl, List.append_nil] at hx
    exact ⟨hx, hx ▸ walk_isDir hw hw.root h⟩
  · rintro ⟨rfl, h⟩
    have := walk_names hw l [] pl (by simpa using h)
    simpa using this

theorem rootPath_directory {d : Disk} (hw : d.Wf) (l : List Str) (c : Str) (hl : l ≠ [])
    (pl : ∀ c ∈ l, IsName c) (hc : slash ∉ c) :
    IsDirectory d (rootPath (l ++ [c])) ↔ d.isDir (c :: l.reverse) = true := by
  simp only [IsDirectory, dirAt_iff, rootPath_parent hw l c hl pl hc, (rootPath_last l c hl hc).2]
  constructor
  · rintro ⟨x, ⟨rfl, -⟩, h⟩; exact h
  · exact fun h => ⟨_, ⟨rfl, hw.closed _ _ h⟩, h⟩

theorem resolve_length (l : List Str) (q : Place) : (resolve q l).length ≤ l.length + q.length := by
  induction l generalizing q with
  | nil => simp [resolve]
  | cons c l ih =>
    simp only [resolve]
    split
    · have := ih q; simp only [List.length_cons]; omega
    · split
      · have := ih q.tail
        have t : q.tail.length ≤ q.length := by simp
        simp only [List.length_cons]; omega
      · have := ih (c :: q); simp only [List.length_cons] at this ⊢; omega

/-- Nothing below a directory is created with it. -/
theorem created_longer {d e : Disk} (hw : d.Wf) (l : List Str) (hl : l ≠ []) (pl : ∀ c ∈ l, IsName c)
    (h : d.createDirectories (rootPath l) = some e) (x : Place) (hx : l.length < x.length) :
    e.isDir x = d.isDir x := by
  obtain ⟨-, k1, -, -⟩ := createDirectories_spec hw h
  rw [Bool.eq_iff_iff]
  refine ⟨fun hd => ?_, k1.dirs x⟩
  rw [Disk.createDirectories, if_neg (by simp [rootPath]), rootPath_split _ hl pl] at h
  rcases mkdirs_only h x hd with h | ⟨l1, l2, hl, hr⟩
  · exact h
  · exfalso
    have st : d.start (rootPath l) = [] := by simp [Disk.start, rootPath, isAbs]
    rw [st] at hr
    cases l1 with
    | nil => rw [hr] at hx; simp [resolve] at hx
    | cons c l1 =>
      simp only [List.cons_append, List.cons.injEq] at hl
      have : resolve [] (c :: l1) = resolve [] l1 := by rw [← hl.1]; simp [resolve]
      rw [hr, this] at hx
      have h1 := congrArg List.length hl.2
      have h2 := resolve_length l1 []
      simp only [List.length_append, List.length_nil] at h1 h2
      omega

/-! ## Theorems -/

/-- **C91, a name with a `/`**, exactly.  A target is made with the name `a/b`.  Its state is stored if and only if
its directory had already a directory `a` before, which nothing in the library creates, and no directory is in the
place of the state file. -/
theorem C91_slash_exact {d d1 : Disk} {p : Project} {a b : Str} {type : TargetType} {tc : Toolchain.Toolchain}
    {env : TargetEnv} {config : TargetConfig} {m : Made} (hw : d.Wf)
    (hm : newTarget d p (a ++ b!"/" ++ b) type tc env config = some (m, d1))
    (henv : Path.toPathString env.buildDir = env.buildDir) (habs : isAbs env.buildDir = true)
    (hfn : filename env.buildDir ≠ []) (pt : PlainName tc.name) (pa : PlainName a) (pb : PlainName b) (text : Str) :
    (∃ e, storeState d1 m text = some e) ↔
      IsDirectory d (env.buildDir ++ b!"/" ++ tc.name ++ b!"/" ++ a ++ b!"/" ++ b ++ b!"/" ++ a) ∧
      ¬ IsDirectory d (env.buildDir ++ b!"/" ++ tc.name ++ b!"/" ++ a ++ b!"/" ++ b ++ b!"/" ++ a ++ b!"/" ++
        b ++ b!".bin") := by
  obtain ⟨es, hes, pes, he⟩ := Path.names_of_normal _ habs henv hfn
  have he : env.buildDir = rootPath es := he
  have ptI : IsName tc.name := pt
  have paI : IsName a := pa
  have pbI : IsName b := pb
  have pbin : IsName (b ++ b!".bin") := Path.with_ext b _ pb (by decide) (by simp)
  have ab : a ++ b!"/" ++ b = joinSlash [a, b] := by simp [joinSlash]
  have abx : a ++ b!"/" ++ b ++ b!".bin" = joinSlash [a, b ++ b!".bin"] := by simp [joinSlash]
  have all : ∀ k : List Str, (∀ c ∈ k, IsName c) → ∀ c ∈ es ++ k, IsName c := by
    intro k hk c hc
    rcases List.mem_append.1 hc with h | h
    · exact pes c h
    · exact hk c h
  -- the paths in question
  have hdir : Path.targetBuildDir env.buildDir tc.name (a ++ b!"/" ++ b) = rootPath (es ++ [tc.name, a, b]) := by
    rw [Path.targetBuildDir, he, show tc.name = joinSlash [tc.name] from rfl,
      rootPath_append es [tc.name] hes (by simp) pes (by simpa using ptI), ab,
      rootPath_append _ [a, b] (by simp) (by simp) (all _ (by simpa using ptI)) (by simpa using ⟨paI, pbI⟩)]
    simp [joinSlash]
  have text1 : env.buildDir ++ b!"/" ++ tc.name ++ b!"/" ++ a ++ b!"/" ++ b ++ b!"/" ++ a =
      rootPath ((es ++ [tc.name, a, b]) ++ [a]) := by
    rw [he, List.append_assoc es, rootPath, rootPath, Path.joinSlash_append es _ hes (by simp)]
    simp [joinSlash]
  have text2 : env.buildDir ++ b!"/" ++ tc.name ++ b!"/" ++ a ++ b!"/" ++ b ++ b!"/" ++ a ++ b!"/" ++ b ++ b!".bin" =
      rootPath ((es ++ [tc.name, a, b, a]) ++ [b ++ b!".bin"]) := by
    rw [he, List.append_assoc es, rootPath, rootPath, Path.joinSlash_append es _ hes (by simp)]
    simp [joinSlash]
  have n3 : ∀ c ∈ es ++ [tc.name, a, b], IsName c := all _ (by simpa using ⟨ptI, paI, pbI⟩)
  have n4 : ∀ c ∈ es ++ [tc.name, a, b, a], IsName c := all _ (by
    intro c hc
    simp only [List.mem_cons, List.not_mem_nil, or_false] at hc
    rcases hc with rfl | rfl | rfl | rfl <;> assumption)
  -- making the target
  simp only [newTarget] at hm
  split at hm
  · rename_i m' hm'
    simp only [Option.map_eq_some_iff, Prod.mk.injEq] at hm
    obtain ⟨e, hcd, rfl, rfl⟩ := hm
    have hmk : m'.buildDir = Path.targetBuildDir env.buildDir tc.name (a ++ b!"/" ++ b) ∧
        m'.name = a ++ b!"/" ++ b := by
      simp only [makeTarget] at hm'
      split at hm'
      · simp at hm'
      · split at hm'
        · simp at hm'
        · simp only [Option.some.injEq] at hm'
          rw [← hm']; exact ⟨rfl, rfl⟩
    obtain ⟨w1, k1, -, -⟩ := createDirectories_spec hw hcd
    rw [hmk.1, hdir] at hcd
    have only : ∀ x : Place, es.length + 3 < x.length → e.isDir x = d.isDir x := fun x hx =>
      created_longer hw _ (by simp) n3 hcd x (by simpa using hx)
    have hst : stateFile m' = rootPath ((es ++ [tc.name, a, b, a]) ++ [b ++ b!".bin"]) := by
      rw [stateFile, hmk.1, hmk.2, hdir, abx, rootPath_append _ _ (by simp) (by simp) n3 (by simpa using ⟨paI, pbin⟩)]
      simp
    have nst : Path.toPathString (stateFile m') = rootPath ((es ++ [tc.name, a, b, a]) ++ [b ++ b!".bin"]) := by
      rw [hst]
      refine rootPath_normal _ (by simp) fun c hc => ?_
      rcases List.mem_append.1 hc with h | h
      · exact n4 c h
      · rw [List.mem_singleton.1 h]; exact pbin
    have rev : a :: (es ++ [tc.name, a, b]).reverse = (es ++ [tc.name, a, b, a]).reverse := by simp
    rw [text2, text1, rootPath_directory hw _ _ (by simp) n3 paI.2.2.2,
      rootPath_directory hw _ _ (by simp) n4 pbin.2.2.2, rev, ← only _ (by simp), ← only _ (by simp)]
    rw [storeState, nst, Disk.saveFile, Disk.target, (rootPath_last _ _ (by simp) pbin.2.2.2).2,
      if_neg (by rw [not_or, not_or]; exact ⟨pbin.1, pbin.2.1, pbin.2.2.1⟩)]
    cases hp : e.parent (rootPath ((es ++ [tc.name, a, b, a]) ++ [b ++ b!".bin"])) with
    | none =>
      have : ¬ e.isDir (es ++ [tc.name, a, b, a]).reverse = true := fun h => by
        have := (rootPath_parent w1 _ (b ++ b!".bin") (by simp) n4 pbin.2.2.2 _).2 ⟨rfl, h⟩
        rw [hp] at this
        exact absurd this (by simp)
      constructor
      · rintro ⟨_, h⟩; exact absurd h (by simp)
      · exact fun h => absurd h.1 this
    | some x =>
      obtain ⟨rfl, hx⟩ := (rootPath_parent w1 _ (b ++ b!".bin") (by simp) n4 pbin.2.2.2 x).1 hp
      simp only [hx, true_and]
      cases e.isDir ((b ++ b!".bin") :: (es ++ [tc.name, a, b, a]).reverse) <;> simp
  · simp at hm

/-- Instance of the hypotheses. -/
example : ∃ m d1, newTarget exDisk exProject (b!"sub" ++ b!"/" ++ b!"hello") .executable
      (Toolchain.toolchainGcc b!"gcc" none none) exEnv gccExe = some (m, d1) ∧ exDisk.Wf ∧
    Path.toPathString exEnv.buildDir = exEnv.buildDir ∧ isAbs exEnv.buildDir = true ∧
    filename exEnv.buildDir ≠ [] ∧ PlainName (Toolchain.toolchainGcc b!"gcc" none none).name ∧
    PlainName b!"sub" ∧ PlainName b!"hello" ∧ ∀ text, ¬ ∃ e, storeState d1 m text = some e := by
  obtain ⟨m, d1, h, hw, -, -, hs⟩ := C91_slash_false
  exact ⟨m, d1, h, hw, by decide, by decide, by decide, by decide, by decide, by decide, fun text => by simp [hs text]⟩

/-- **C91, an output of a generator in a directory below its own**, exactly: the output can be written if and only
if that directory was already there before the generator was made. -/
theorem C91_output_exact {d d1 : Disk} {p : Project} {env : TargetEnv} {g s f : Str} (hw : d.Wf)
    (hg : newGenerator d p env g = some d1)
    (henv : Path.toPathString env.buildDir = env.buildDir) (habs : isAbs env.buildDir = true)
    (hfn : filename env.buildDir ≠ []) (pg : PlainName g) (ps : PlainName s) (pf : PlainName f) :
    DirReady d1 (env.buildDir ++ b!"/" ++ g ++ b!"/" ++ s ++ b!"/" ++ f) ↔
      IsDirectory d (env.buildDir ++ b!"/" ++ g ++ b!"/" ++ s) := by
  obtain ⟨es, hes, pes, he⟩ := Path.names_of_normal _ habs henv hfn
  have he : env.buildDir = rootPath es := he
  have pgI : IsName g := pg
  have psI : IsName s := ps
  have all : ∀ k : List Str, (∀ c ∈ k, IsName c) → ∀ c ∈ es ++ k, IsName c := by
    intro k hk c hc
    rcases List.mem_append.1 hc with h | h
    · exact pes c h
    · exact hk c h
  have n1 : ∀ c ∈ es ++ [g], IsName c := all _ (by simpa using pgI)
  have n2 : ∀ c ∈ es ++ [g, s], IsName c := all _ (by simpa using ⟨pgI, psI⟩)
  have text1 : env.buildDir ++ b!"/" ++ g ++ b!"/" ++ s = rootPath ((es ++ [g]) ++ [s]) := by
    rw [he, List.append_assoc es, rootPath, rootPath, Path.joinSlash_append es _ hes (by simp)]
    simp [joinSlash]
  have text2 : env.buildDir ++ b!"/" ++ g ++ b!"/" ++ s ++ b!"/" ++ f = rootPath ((es ++ [g, s]) ++ [f]) := by
    rw [he, List.append_assoc es, rootPath, rootPath, Path.joinSlash_append es _ hes (by simp)]
    simp [joinSlash]
  rw [newGenerator] at hg
  split at hg
  · simp at hg
  · have hdir : Path.genBuildDir env.buildDir g = rootPath (es ++ [g]) := by
      rw [Path.genBuildDir, he]
      exact rootPath_append es [g] hes (by simp) pes (by simpa using pgI)
    obtain ⟨w1, -, -, -⟩ := createDirectories_spec hw hg
    rw [hdir] at hg
    rw [text2, text1, rootPath_directory hw _ _ (by simp) n1 psI.2.2.2,
      ← created_longer hw _ (by simp) n1 hg _ (by simp), dirReady_iff]
    simp only [rootPath_parent w1 _ f (by simp) n2 pf.2.2.2]
    have rev : s :: (es ++ [g]).reverse = (es ++ [g, s]).reverse := by simp
    rw [rev]
    exact ⟨fun ⟨_, _, h⟩ => h, fun h => ⟨_, rfl, h⟩⟩

/-- Instance of the hypotheses. -/
example : ∃ d1, newGenerator exDisk exProject exEnv b!"gen" = some d1 ∧ exDisk.Wf ∧
    PlainName b!"gen" ∧ PlainName b!"sub" ∧ PlainName b!"x.h" ∧
    ¬ DirReady d1 (exEnv.buildDir ++ b!"/" ++ b!"gen" ++ b!"/" ++ b!"sub" ++ b!"/" ++ b!"x.h") := by
  obtain ⟨d1, h, hw, hn, -⟩ := C91_output_false
  exact ⟨d1, h, hw, by decide, by decide, by decide, hn⟩

end Verif.Disk
