import Verif.Target.SpecialProps
import Verif.Path.Generators

/-!
# The files of one target (C123)

What a target writes into its build directory: the state, the output, the files of the precompiled header and one
object for each source.  Which of these are the same file.
-/

namespace Verif.Target
open Verif Verif.Schema Verif.Toolchain
open Verif.Path (PlainName toPathString isAbs filename slash asDir joinSlash dotdot splitSlash)

/-! ## Specification -/

/-- What a file in the build directory of a target is for.  Sources are given by their path below the root
directory. -/
inductive Role
  | state
  | output
  | pchHeader
  | pchSource (cpp : Bool)
  | pchCompiled
  | pchObject
  | object (r : Str)
deriving DecidableEq

/-- The file of a target (`target.h:73`, `link_target.cpp:52-58`, `compile_pch.cpp:123-143`,
`compile_object.cpp:109-164`). -/
def Made.fileOf (m : Made) : Role → Str
  | .state => Path.append m.buildDir (m.name ++ b!".bin")
  | .output => outputPath m.fixed
  | .pchHeader => Path.pchHeaderPath m.buildDir m.toolchain.config.pchHeaderExt
  | .pchSource cpp => Path.pchSourcePath m.buildDir m.toolchain.config.pchHeaderExt cpp
  | .pchCompiled => Path.pchCompilePath m.buildDir m.toolchain.config.pchHeaderExt m.toolchain.config.pchCompileExt
  | .pchObject => Path.pchObjectPath m.buildDir m.toolchain.config.pchHeaderExt m.toolchain.config.objExt
  | .object r => objPath m.fixed (m.rootDir ++ b!"/" ++ r)

/-- The name of the file below the build directory, as a user would write it. -/
def Made.below (m : Made) : Role → Str
  | .state => m.name ++ b!".bin"
  | .output => m.name ++ m.config.targetExt
  | .pchHeader => b!"buildcc_pch.h"
  | .pchSource true => b!"buildcc_pch.cpp"
  | .pchSource false => b!"buildcc_pch.c"
  | .pchCompiled => b!"buildcc_pch.h" ++ m.toolchain.config.pchCompileExt
  | .pchObject => b!"buildcc_pch" ++ m.toolchain.config.objExt
  | .object r => r ++ m.toolchain.config.objExt

/-- The extensions are those of the shipped toolchains. -/
def ShippedExts (c : Config) : Prop :=
  c.pchHeaderExt = b!".h" ∧
    ((c.objExt = b!".o" ∧ c.pchCompileExt = b!".gch") ∨ (c.objExt = b!".obj" ∧ c.pchCompileExt = b!".pch"))

instance (c : Config) : Decidable (ShippedExts c) := by unfold ShippedExts; infer_instance

/-- A source inside of the root directory, without two dots in a row. -/
structure SourceIn (root r : Str) : Prop where
  normal : toPathString (root ++ b!"/" ++ r) = root ++ b!"/" ++ r
  file : filename r ≠ []
  dots : Path.hasDotDot r = false

/-- The role is possible: what is compiled is a source inside of the root directory. -/
def Role.Of (root : Str) : Role → Prop
  | .object r => SourceIn root r
  | _ => True

/-! ## Proofs -/

theorem own_replace (build e : Str) :
    Path.replaceExtension (Path.pchHeaderPath build b!".h") (c!"." :: e) =
      asDir build ++ (b!"buildcc_pch" ++ c!"." :: e) := by
  have hp : Path.pchHeaderPath build b!".h" = asDir build ++ (b!"buildcc_pch" ++ b!".h") :=
    Path.append_rel _ _ (by decide)
  have h := stem_file (asDir build) b!"buildcc_pch" b!".h" (by decide) ⟨b!"h", rfl, by decide, by decide, by decide⟩
    (Path.asDir_end build) (by decide)
  rw [hp, Path.replaceExtension, h]
  simp

/-- A name with an extension at its end. -/
theorem own_last (l : List Str) (c e : Str) : joinSlash (l ++ [c]) ++ e = joinSlash (l ++ [c ++ e]) := by
  induction l with
  | nil => rfl
  | cons x l ih =>
    cases l with
    | nil => simp [joinSlash]
    | cons y l =>
      have h : ∀ z, joinSlash (x :: y :: l ++ [z]) = x ++ slash :: joinSlash (y :: l ++ [z]) := fun _ => rfl
      rw [h, h, ← ih]; simp

/-- The names of a source below the root directory. -/
theorem own_source (root r : Str) (ha : isAbs root = true) (h : SourceIn root r) :
    ∃ l c, r = joinSlash (l ++ [c]) ∧ (∀ x ∈ l ++ [c], PlainName x) := by
  have hfn : filename (root ++ b!"/" ++ r) = filename r := by
    have := (Path.splitFile_prefix (root ++ [slash]) r (Or.inr ⟨root, rfl⟩)).2
    simpa using this
  have hne : root ≠ [] := by rintro rfl; simp [isAbs] at ha
  obtain ⟨names, hn, pn, e⟩ := Path.names_of_normal (root ++ b!"/" ++ r)
    (by rw [List.append_assoc, Path.isAbs_append _ _ hne, ha]) h.normal (by rw [hfn]; exact h.file)
  have hs : splitSlash (root ++ b!"/" ++ r) = splitSlash root ++ splitSlash r := by
    rw [List.append_assoc]; exact Path.splitSlash_append root r
  have hs2 : splitSlash (slash :: joinSlash names) = [] :: names := by
    rw [show slash :: joinSlash names = [] ++ slash :: joinSlash names from rfl, Path.splitSlash_append,
      Path.splitSlash_joinSlash names hn fun c hc => (pn c hc).2.2.2]
    rfl
  rw [e, hs2] at hs
  have hr := Path.splitSlash_ne_nil r
  have mem : ∀ x ∈ splitSlash r, x ∈ names := by
    intro x hx
    cases hsr : splitSlash root with
    | nil => exact absurd hsr (Path.splitSlash_ne_nil root)
    | cons y l =>
      rw [hsr, List.cons_append, List.cons.injEq] at hs
      rw [hs.2]; exact List.mem_append_right _ hx
  refine ⟨(splitSlash r).dropLast, (splitSlash r).getLast hr, ?_, ?_⟩
  · rw [List.dropLast_concat_getLast, Path.joinSlash_splitSlash]
  · rw [List.dropLast_concat_getLast]
    exact fun x hx => pn x (mem x hx)

/-- Every file of a target is given by names below its build directory. -/
theorem own_names {m : Made} (hc : ShippedExts m.toolchain.config) (hn : PlainName m.name)
    (ho : PlainName (m.name ++ m.config.targetExt))
    (hroot : toPathString m.rootDir = m.rootDir) (habs : isAbs m.rootDir = true)
    (hfn : filename m.rootDir ≠ []) (a : Role) (ha : a.Of m.rootDir) :
    ∃ l, l ≠ [] ∧ (∀ c ∈ l, PlainName c) ∧ m.fileOf a = asDir m.buildDir ++ joinSlash l ∧
      joinSlash l = m.below a := by
  obtain ⟨h1, h2⟩ := hc
  have one : ∀ f, PlainName f → m.fileOf a = asDir m.buildDir ++ f → f = m.below a →
      ∃ l, l ≠ [] ∧ (∀ c ∈ l, PlainName c) ∧ m.fileOf a = asDir m.buildDir ++ joinSlash l ∧
        joinSlash l = m.below a :=
    fun f pf e1 e2 => ⟨[f], by simp, by simpa using pf, e1, e2⟩
  have app : ∀ f, PlainName f → Path.append m.buildDir f = asDir m.buildDir ++ f := fun f pf =>
    Path.append_rel _ _ (Path.isAbs_noSlash _ pf.2.2.2)
  have exts : (slash ∉ m.toolchain.config.objExt ∧ ∃ e, m.toolchain.config.objExt = c!"." :: e) ∧
      ∃ e, m.toolchain.config.pchHeaderExt ++ m.toolchain.config.pchCompileExt = c!"." :: e ∧ slash ∉ c!"." :: e := by
    rw [h1]
    rcases h2 with ⟨h2, h3⟩ | ⟨h2, h3⟩ <;> rw [h2, h3]
    · exact ⟨⟨by decide, b!"o", rfl⟩, b!"h.gch", rfl, by decide⟩
    · exact ⟨⟨by decide, b!"obj", rfl⟩, b!"h.pch", rfl, by decide⟩
  obtain ⟨⟨hos, eo, heo⟩, ec, hec, hcs⟩ := exts
  have pch : ∀ e, slash ∉ e → PlainName (b!"buildcc_pch" ++ e) := fun e he =>
    Path.with_ext _ _ (by decide) he (by simp)
  cases a with
  | state =>
    have pf := Path.with_ext m.name b!".bin" hn (by decide) (by simp)
    exact one _ pf (app _ pf) rfl
  | output => exact one _ ho (app _ ho) rfl
  | pchHeader =>
    refine one b!"buildcc_pch.h" (by decide) ?_ rfl
    rw [Made.fileOf, h1]; exact app _ (by decide)
  | pchSource cpp =>
    cases cpp with
    | true =>
      refine one b!"buildcc_pch.cpp" (by decide) ?_ rfl
      rw [Made.fileOf, h1]; exact own_replace m.buildDir b!"cpp"
    | false =>
      refine one b!"buildcc_pch.c" (by decide) ?_ rfl
      rw [Made.fileOf, h1]; exact own_replace m.buildDir b!"c"
  | pchCompiled =>
    refine one (b!"buildcc_pch" ++ (m.toolchain.config.pchHeaderExt ++ m.toolchain.config.pchCompileExt))
      (pch _ (by rw [hec]; exact hcs)) ?_ ?_
    · rw [Made.fileOf, Path.pchCompilePath, hec, h1]
      exact own_replace m.buildDir ec
    · rw [Made.below, h1]; rfl
  | pchObject =>
    refine one (b!"buildcc_pch" ++ m.toolchain.config.objExt) (pch _ hos) ?_ rfl
    rw [Made.fileOf, Path.pchObjectPath, heo, h1]
    exact own_replace m.buildDir eo
  | object r =>
    have hr : SourceIn m.rootDir r := ha
    obtain ⟨l, c, e, pl⟩ := own_source m.rootDir r habs hr
    have hk := Path.lexRelative_inside m.rootDir r hroot habs hfn hr.normal hr.file
    have hfe : filename (m.rootDir ++ b!"/" ++ r) = filename r := by
      have := (Path.splitFile_prefix (m.rootDir ++ [slash]) r (Or.inr ⟨m.rootDir, rfl⟩)).2
      simpa using this
    have hrel : isAbs r = false := by rw [← hk]; exact Path.lexRelative_rel _ _
    have hobj : m.fileOf (.object r) = asDir m.buildDir ++ (r ++ m.toolchain.config.objExt) := by
      have e1 := Path.objectPath_eq m.rootDir m.buildDir _ (m.rootDir ++ b!"/" ++ r) hos r (by rw [hk, hr.dots]; rfl) hrel
      rw [show m.fileOf (.object r) = _ from e1, hfe]
      have := Path.splitFile_append r
      conv => rhs; rw [← this]
      simp
    refine ⟨l ++ [c ++ m.toolchain.config.objExt], by simp, ?_, ?_, ?_⟩
    · intro x hx
      rcases List.mem_append.1 hx with h | h
      · exact pl x (List.mem_append_left _ h)
      · rw [List.mem_singleton.1 h]
        have pc := pl c (by simp)
        refine Path.with_ext c _ pc hos ?_
        have : 0 < c.length := List.length_pos_iff.2 pc.1
        rcases h2 with ⟨h2, -⟩ | ⟨h2, -⟩ <;> rw [h2] <;> simp <;> omega
    · rw [hobj, ← own_last, ← e]
    · rw [← own_last, ← e]; rfl

/-- The names of the files other than the output. -/
theorem own_inj {m : Made} (hc : ShippedExts m.toolchain.config) {a b : Role} (ea : a ≠ .output) (eb : b ≠ .output)
    (hr : a ≠ .object b!"buildcc_pch" ∧ b ≠ .object b!"buildcc_pch") (h : m.below a = m.below b) : a = b := by
  obtain ⟨-, h2⟩ := hc
  have obj : ∀ r e : Str, r ++ e = b!"buildcc_pch" ++ e → r = b!"buildcc_pch" := fun r e h =>
    List.append_cancel_right h
  have key : ∀ r, Role.object r ≠ .object b!"buildcc_pch" → r ≠ b!"buildcc_pch" := fun r h e => h (by rw [e])
  have ha : ∀ r c, c ≠ .output → Role.object r ≠ .object b!"buildcc_pch" → m.below (.object r) = m.below c →
      Role.object r = c := by
    intro r c hco hro h
    cases c with
    | output => exact absurd rfl hco
    | object r' => rw [List.append_cancel_right h]
    | pchObject => exact absurd (obj r _ h) (key r hro)
    | pchSource cpp =>
      have h := congrArg List.reverse h
      rcases h2 with ⟨h2, -⟩ | ⟨h2, -⟩ <;> cases cpp <;> simp [Made.below, h2] at h
    | _ =>
      have h := congrArg List.reverse h
      rcases h2 with ⟨h2, h3⟩ | ⟨h2, h3⟩ <;> simp [Made.below, h2, h3] at h
  have hst : ∀ c, c ≠ .output → m.below .state = m.below c → Role.state = c := by
    intro c hco h
    cases c with
    | output => exact absurd rfl hco
    | state => rfl
    | pchSource cpp =>
      have h := congrArg List.reverse h
      cases cpp <;> simp [Made.below] at h
    | _ =>
      have h := congrArg List.reverse h
      rcases h2 with ⟨h2, h3⟩ | ⟨h2, h3⟩ <;> simp [Made.below, h2, h3] at h
  cases a with
  | output => exact absurd rfl ea
  | object r => exact ha r b eb hr.1 h
  | state => exact hst b eb h
  | pchSource cpp =>
    cases b with
    | output => exact absurd rfl eb
    | object r => exact (ha r _ ea hr.2 h.symm).symm
    | state => exact (hst _ ea h.symm).symm
    | pchSource cpp' => cases cpp <;> cases cpp' <;> first | rfl | exact absurd h (by simp [Made.below])
    | _ => rcases h2 with ⟨h2, h3⟩ | ⟨h2, h3⟩ <;> cases cpp <;> simp [Made.below, h2, h3] at h
  | _ =>
    cases b with
    | output => exact absurd rfl eb
    | object r => exact (ha r _ ea hr.2 h.symm).symm
    | state => exact (hst _ ea h.symm).symm
    | pchSource cpp' => rcases h2 with ⟨h2, h3⟩ | ⟨h2, h3⟩ <;> cases cpp' <;> simp [Made.below, h2, h3] at h
    | _ =>
      first
      | rfl
      | (rcases h2 with ⟨h2, h3⟩ | ⟨h2, h3⟩ <;> simp [Made.below, h2, h3] at h)

/-! ## Theorems -/

/-- **C123**, exactly: two files of a target are the same if and only if their names below the build directory
are the same. -/
theorem C123_exact {m : Made} (hb : m.buildDir ≠ []) (hc : ShippedExts m.toolchain.config) (hn : PlainName m.name)
    (ho : PlainName (m.name ++ m.config.targetExt))
    (hroot : toPathString m.rootDir = m.rootDir) (habs : isAbs m.rootDir = true) (hfn : filename m.rootDir ≠ [])
    (a b : Role) (ha : a.Of m.rootDir) (hb' : b.Of m.rootDir) :
    toPathString (m.fileOf a) = toPathString (m.fileOf b) ↔ m.below a = m.below b := by
  obtain ⟨l, hl, pl, e1, e2⟩ := own_names hc hn ho hroot habs hfn a ha
  obtain ⟨k, hk, pk, f1, f2⟩ := own_names hc hn ho hroot habs hfn b hb'
  rw [e1, f1, ← e2, ← f2]
  exact ⟨fun h => by rw [Path.names_inj m.buildDir hb l k hl hk pl pk h], fun h => by rw [h]⟩

/-- The files other than the output are different from each other, and the output is different from them if its
name is. -/
theorem C123_distinct {m : Made} (hb : m.buildDir ≠ []) (hc : ShippedExts m.toolchain.config)
    (hn : PlainName m.name) (ho : PlainName (m.name ++ m.config.targetExt))
    (hroot : toPathString m.rootDir = m.rootDir) (habs : isAbs m.rootDir = true) (hfn : filename m.rootDir ≠ [])
    (a b : Role) (ha : a.Of m.rootDir) (hb' : b.Of m.rootDir)
    (hr : a ≠ .object b!"buildcc_pch" ∧ b ≠ .object b!"buildcc_pch")
    (hout : ∀ c : Role, c.Of m.rootDir → c ≠ .output → m.name ++ m.config.targetExt ≠ m.below c)
    (h : toPathString (m.fileOf a) = toPathString (m.fileOf b)) : a = b := by
  rw [C123_exact hb hc hn ho hroot habs hfn a b ha hb'] at h
  by_cases ea : a = .output
  · by_cases eb : b = .output
    · rw [ea, eb]
    · rw [ea] at h; exact absurd h (hout b hb' eb)
  · by_cases eb : b = .output
    · rw [eb] at h; exact absurd h.symm (hout a ha ea)
    · exact own_inj hc ea eb hr h

/-- **C123, libraries, and executables for Windows.**  If the output has one of the shipped extensions, then all
files of the target are different, whatever its name is and whatever its sources are. -/
theorem C123_extension {m : Made} (hb : m.buildDir ≠ []) (hc : ShippedExts m.toolchain.config)
    (hn : PlainName m.name)
    (hx : m.config.targetExt ∈ [b!".a", b!".so", b!".lib", b!".dll", b!".exe"])
    (hroot : toPathString m.rootDir = m.rootDir) (habs : isAbs m.rootDir = true) (hfn : filename m.rootDir ≠ [])
    (a b : Role) (ha : a.Of m.rootDir) (hb' : b.Of m.rootDir)
    (hr : a ≠ .object b!"buildcc_pch" ∧ b ≠ .object b!"buildcc_pch")
    (h : toPathString (m.fileOf a) = toPathString (m.fileOf b)) : a = b := by
  have hl : 0 < m.name.length := List.length_pos_iff.2 hn.1
  have ho : PlainName (m.name ++ m.config.targetExt) := by
    simp only [List.mem_cons, List.not_mem_nil, or_false] at hx
    rcases hx with h | h | h | h | h <;> rw [h] <;>
      exact Path.with_ext _ _ hn (by decide) (by simp <;> omega)
  refine C123_distinct hb hc hn ho hroot habs hfn a b ha hb' hr (fun c _ hcn e => ?_) h
  obtain ⟨-, h2⟩ := hc
  simp only [List.mem_cons, List.not_mem_nil, or_false] at hx
  have e := congrArg List.reverse e
  cases c with
  | output => exact hcn rfl
  | pchSource cpp => cases cpp <;> rcases hx with h | h | h | h | h <;> rw [h] at e <;> simp [Made.below] at e
  | _ =>
    rcases h2 with ⟨h2, h3⟩ | ⟨h2, h3⟩ <;> rcases hx with h | h | h | h | h <;> rw [h] at e <;>
      simp [Made.below, h2, h3] at e

/-- **C123, executables without an extension**, exactly: two files of the target are the same if and only if the
target has the name of another of its files. -/
theorem C123_executable {m : Made} (hb : m.buildDir ≠ []) (hc : ShippedExts m.toolchain.config)
    (hn : PlainName m.name) (hx : m.config.targetExt = [])
    (hroot : toPathString m.rootDir = m.rootDir) (habs : isAbs m.rootDir = true) (hfn : filename m.rootDir ≠ [])
    (srcs : List Str) (hs : ∀ r ∈ srcs, SourceIn m.rootDir r ∧ r ≠ b!"buildcc_pch") :
    (∃ a b : Role, (∀ r, a = .object r → r ∈ srcs) ∧ (∀ r, b = .object r → r ∈ srcs) ∧ a ≠ b ∧
        toPathString (m.fileOf a) = toPathString (m.fileOf b)) ↔
      m.name ∈ [b!"buildcc_pch.h", b!"buildcc_pch.cpp", b!"buildcc_pch.c",
        b!"buildcc_pch.h" ++ m.toolchain.config.pchCompileExt, b!"buildcc_pch" ++ m.toolchain.config.objExt] ∨
      ∃ r ∈ srcs, m.name = r ++ m.toolchain.config.objExt := by
  have ho : PlainName (m.name ++ m.config.targetExt) := by rw [hx, List.append_nil]; exact hn
  have of : ∀ a : Role, (∀ r, a = .object r → r ∈ srcs) → a.Of m.rootDir := by
    intro a h
    cases a with
    | object r => exact (hs r (h r rfl)).1
    | _ => trivial
  have np : ∀ a : Role, (∀ r, a = .object r → r ∈ srcs) → a ≠ .object b!"buildcc_pch" := by
    intro a h e
    exact (hs _ (h _ e)).2 rfl
  have out : m.below .output = m.name := by rw [Made.below, hx, List.append_nil]
  have named : ∀ c : Role, (∀ r, c = .object r → r ∈ srcs) → c ≠ .output → m.name = m.below c →
      m.name ∈ [b!"buildcc_pch.h", b!"buildcc_pch.cpp", b!"buildcc_pch.c",
        b!"buildcc_pch.h" ++ m.toolchain.config.pchCompileExt, b!"buildcc_pch" ++ m.toolchain.config.objExt] ∨
      ∃ r ∈ srcs, m.name = r ++ m.toolchain.config.objExt := by
    intro c hcs hco e
    cases c with
    | output => exact absurd rfl hco
    | state => exact absurd (congrArg List.length e) (by simp [Made.below])
    | object r => exact .inr ⟨r, hcs r rfl, e⟩
    | pchSource cpp =>
      left; rw [e]; cases cpp
      · exact List.mem_cons_of_mem _ (List.mem_cons_of_mem _ List.mem_cons_self)
      · exact List.mem_cons_of_mem _ List.mem_cons_self
    | pchHeader => left; rw [e]; exact List.mem_cons_self
    | pchCompiled =>
      left
      exact List.mem_cons_of_mem _ (List.mem_cons_of_mem _ (List.mem_cons_of_mem _ (List.mem_cons.2 (.inl e))))
    | pchObject =>
      left
      exact List.mem_cons_of_mem _ (List.mem_cons_of_mem _ (List.mem_cons_of_mem _ (List.mem_cons_of_mem _
        (List.mem_cons.2 (.inl e)))))
  constructor
  · rintro ⟨a, b, ra, rb, hab, h⟩
    rw [C123_exact hb hc hn ho hroot habs hfn a b (of a ra) (of b rb)] at h
    by_cases ea : a = .output
    · subst ea
      exact named b rb (fun e => hab e.symm) (by rw [← out, h])
    · by_cases eb : b = .output
      · subst eb
        exact named a ra ea (by rw [← out, h])
      · exact absurd (own_inj hc ea eb ⟨np a ra, np b rb⟩ h) hab
  · have give : ∀ c : Role, (∀ r, c = .object r → r ∈ srcs) → c ≠ .output → m.name = m.below c →
        ∃ a b : Role, (∀ r, a = .object r → r ∈ srcs) ∧ (∀ r, b = .object r → r ∈ srcs) ∧ a ≠ b ∧
          toPathString (m.fileOf a) = toPathString (m.fileOf b) := by
      intro c hcs hco e
      refine ⟨.output, c, by simp, hcs, fun x => hco x.symm, ?_⟩
      rw [C123_exact hb hc hn ho hroot habs hfn .output c trivial (of c hcs), out, e]
    rintro (h | ⟨r, hr, e⟩)
    · simp only [List.mem_cons, List.not_mem_nil, or_false] at h
      rcases h with h | h | h | h | h
      · exact give .pchHeader (by simp) (by simp) h
      · exact give (.pchSource true) (by simp) (by simp) h
      · exact give (.pchSource false) (by simp) (by simp) h
      · exact give .pchCompiled (by simp) (by simp) h
      · exact give .pchObject (by simp) (by simp) h
    · exact give (.object r) (by rintro _ ⟨rfl⟩; exact hr) (by simp) e

/-! ## Instances -/

/-- An executable with GCC. -/
def ownExample (name : Str) : Made :=
  { name, type := .executable, toolchain := toolchainGcc b!"gcc" none none, rootDir := b!"/p",
    buildDir := b!"/p/build/gcc/" ++ name, config := shipped .gcc .executable, info := TargetSchema.empty }

/-- C123 is false for an executable that has the name of an object: linking replaces the object of the source. -/
theorem C123_name_false : (ownExample b!"main.cpp.o").fileOf .output =
      (ownExample b!"main.cpp.o").fileOf (.object b!"main.cpp") ∧
    ShippedExts (ownExample b!"main.cpp.o").toolchain.config ∧ PlainName b!"main.cpp.o" := by decide +kernel

example : ShippedExts (ownExample b!"hello").toolchain.config ∧ PlainName b!"hello" ∧
    (ownExample b!"hello").config.targetExt = [] ∧ isAbs (ownExample b!"hello").rootDir = true ∧
    toPathString (ownExample b!"hello").rootDir = (ownExample b!"hello").rootDir ∧
    toPathString (b!"/p" ++ b!"/" ++ b!"src/main.cpp") = b!"/p" ++ b!"/" ++ b!"src/main.cpp" ∧
    Path.hasDotDot b!"src/main.cpp" = false ∧
    (ownExample b!"hello").fileOf (.object b!"src/main.cpp") = b!"/p/build/gcc/hello/src/main.cpp.o" ∧
    (ownExample b!"hello").fileOf .pchCompiled = b!"/p/build/gcc/hello/buildcc_pch.h.gch" := by decide +kernel

end Verif.Target
