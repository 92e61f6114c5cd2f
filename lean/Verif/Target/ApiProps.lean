import Verif.Target.Api
import Verif.Target.SyncProps
import Verif.Path.MoreLemmas
import Verif.Target.CommandProps

/-! # Filling a target (C48, C50, C67) -/

namespace Verif.Target
open Verif Verif.Schema Verif.Toolchain

/-! ## Specification -/

/-- A path that is stored, without a hash. -/
def stored (p : Str) : PathInfo ⊕ Str := .inl ⟨Path.toPathString p, []⟩

/-- A directory that is stored. -/
def storedDir (p : Str) : PathInfo ⊕ Str := .inr (Path.toPathString p)

/-- The extension of the path is one of these. -/
def HasExt (l : List Str) (p : Str) : Prop := Path.extension p ≠ [] ∧ Path.extension p ∈ l

instance (l : List Str) (p : Str) : Decidable (HasExt l p) := inferInstanceAs (Decidable (_ ∧ _))

/-- The path has an extension of a C, C++ or assembler file. -/
def IsSource (c : Config) (p : Str) : Prop :=
  HasExt c.validC p ∨ HasExt c.validCpp p ∨ HasExt c.validAsm p

/-- The path has an extension of a header. -/
def IsHeader (c : Config) (p : Str) : Prop := HasExt c.validHeader p

instance (c : Config) (p : Str) : Decidable (IsSource c p) :=
  inferInstanceAs (Decidable (_ ∨ _ ∨ _))
instance (c : Config) (p : Str) : Decidable (IsHeader c p) := inferInstanceAs (Decidable (HasExt _ _))

/-- The files in `dir` with a property. -/
def filesIn (e : ApiEnv) (dir : Str) (p : Str → Bool) : List Str :=
  ((e.list dir).getD []).map (Path.append dir) |>.filter p

/-- The list in which a flag is stored. -/
def FlagKind.option : FlagKind → SyncOption
  | .preprocessor => .preprocessorFlags
  | .commonCompile => .commonCompileFlags
  | .pchCompile => .pchCompileFlags
  | .pchObject => .pchObjectFlags
  | .asmCompile => .asmCompileFlags
  | .cCompile => .cCompileFlags
  | .cppCompile => .cppCompileFlags
  | .link => .linkFlags

/-- The flags of a toolchain. -/
def flagsOf (f : Flags) : FlagKind → List Str
  | .preprocessor => f.preprocessorFlags
  | .commonCompile => f.commonCompileFlags
  | .pchCompile => f.pchCompileFlags
  | .pchObject => f.pchObjectFlags
  | .asmCompile => f.asmCompileFlags
  | .cCompile => f.cCompileFlags
  | .cppCompile => f.cppCompileFlags
  | .link => f.linkFlags

/-- What a call adds, and to which list. -/
def addsTo (e : ApiEnv) : ApiOp → List (SyncOption × List (PathInfo ⊕ Str))
  | .addSourceAbsolute p => [(.sources, [stored p])]
  | .addSource p dir => [(.sources, [stored (Path.append (Path.append e.root dir) p)])]
  | .globSourcesAbsolute dir =>
    [(.sources, (filesIn e dir fun p => decide (IsSource e.cfg p)).map stored)]
  | .globSources dir =>
    [(.sources, (filesIn e (Path.append e.root dir) fun p => decide (IsSource e.cfg p)).map stored)]
  | .addHeaderAbsolute p => [(.headers, [stored p])]
  | .addHeader p dir => [(.headers, [stored (Path.append (Path.append e.root dir) p)])]
  | .globHeadersAbsolute dir =>
    [(.headers, (filesIn e dir fun p => decide (IsHeader e.cfg p)).map stored)]
  | .globHeaders dir =>
    [(.headers, (filesIn e (Path.append e.root dir) fun p => decide (IsHeader e.cfg p)).map stored)]
  | .addIncludeDirAbsolute dir glob =>
    [(.includeDirs, [storedDir dir]),
     (.headers, if glob then (filesIn e dir fun p => decide (IsHeader e.cfg p)).map stored else [])]
  | .addIncludeDir dir glob =>
    [(.includeDirs, [storedDir (Path.append e.root dir)]),
     (.headers, if glob then (filesIn e (Path.append e.root dir)
        fun p => decide (IsHeader e.cfg p)).map stored else [])]
  | .addPchAbsolute p => [(.pchs, [stored p])]
  | .addPch p dir => [(.pchs, [stored (Path.append (Path.append e.root dir) p)])]
  | .addLibDirAbsolute dir => [(.libDirs, [storedDir dir])]
  | .addLibDir dir => [(.libDirs, [storedDir (Path.append e.root dir)])]
  | .addExternalLib lib => [(.externalLibs, [.inr lib])]
  | .addLib p => [(.libs, [stored p])]
  | .addFlag k f => [(k.option, [.inr f])]
  | .addCompileDependencyAbsolute p => [(.compileDeps, [stored p])]
  | .addCompileDependency p => [(.compileDeps, [stored (Path.append e.root p)])]
  | .addLinkDependencyAbsolute p => [(.linkDeps, [stored p])]
  | .addLinkDependency p => [(.linkDeps, [stored (Path.append e.root p)])]
  | .copy _ _ => []
  | .insert src options => options.map fun o => (o, entries o src)

/-- What a call adds to one list. -/
def added (e : ApiEnv) (o : SyncOption) (op : ApiOp) : List (PathInfo ⊕ Str) :=
  ((addsTo e op).filter fun x => x.1 = o).flatMap (·.2)

/-- The call is `Copy` with this option. -/
def Copies (o : SyncOption) : ApiOp → Prop
  | .copy _ options => o ∈ options
  | _ => False

/-- The call ends the program: the path has the wrong extension, or the directory cannot be
listed. -/
def Rejected (e : ApiEnv) : ApiOp → Prop
  | .addSourceAbsolute p => ¬ IsSource e.cfg p
  | .addSource p dir => ¬ IsSource e.cfg (Path.append (Path.append e.root dir) p)
  | .globSourcesAbsolute dir => e.list dir = none
  | .globSources dir => e.list (Path.append e.root dir) = none
  | .addHeaderAbsolute p => ¬ IsHeader e.cfg p
  | .addHeader p dir => ¬ IsHeader e.cfg (Path.append (Path.append e.root dir) p)
  | .globHeadersAbsolute dir => e.list dir = none
  | .globHeaders dir => e.list (Path.append e.root dir) = none
  | .addIncludeDirAbsolute dir glob => glob = true ∧ e.list dir = none
  | .addIncludeDir dir glob => glob = true ∧ e.list (Path.append e.root dir) = none
  | .addPchAbsolute p => ¬ IsHeader e.cfg p
  | .addPch p dir => ¬ IsHeader e.cfg (Path.append (Path.append e.root dir) p)
  | _ => False

/-! ## Lemmas -/

theorem isValidSource_iff (c : Config) (p : Str) : c.isValidSource p = true ↔ IsSource c p := by
  simp only [Config.isValidSource, IsSource, HasExt]
  split
  · rename_i h; simp [h]
  · rename_i h; simp [h, or_assoc]

theorem isValidHeader_iff (c : Config) (p : Str) : c.isValidHeader p = true ↔ IsHeader c p := by
  simp only [Config.isValidHeader, IsHeader, HasExt]
  split
  · rename_i h; simp [h]
  · rename_i h; simp [h]

/-- Adding a source that was checked. -/
theorem addSource_cases (e : ApiEnv) (t : TargetSchema) (p : Str) :
    (IsSource e.cfg p ∧ addSourceAbsolute e t p =
      some { t with sources := emplaceInfo t.sources p }) ∨
    (¬ IsSource e.cfg p ∧ addSourceAbsolute e t p = none) := by
  rw [addSourceAbsolute, ← isValidSource_iff]
  split
  · rename_i h; exact .inl ⟨h, rfl⟩
  · rename_i h; exact .inr ⟨h, rfl⟩

theorem addHeader_cases (e : ApiEnv) (t : TargetSchema) (p : Str) :
    (IsHeader e.cfg p ∧ addHeaderAbsolute e t p =
      some { t with headers := emplaceInfo t.headers p }) ∨
    (¬ IsHeader e.cfg p ∧ addHeaderAbsolute e t p = none) := by
  rw [addHeaderAbsolute, ← isValidHeader_iff]
  split
  · rename_i h; exact .inl ⟨h, rfl⟩
  · rename_i h; exact .inr ⟨h, rfl⟩

theorem addPch_cases (e : ApiEnv) (t : TargetSchema) (p : Str) :
    (IsHeader e.cfg p ∧ addPchAbsolute e t p = some { t with pchs := emplaceInfo t.pchs p }) ∨
    (¬ IsHeader e.cfg p ∧ addPchAbsolute e t p = none) := by
  rw [addPchAbsolute, ← isValidHeader_iff]
  split
  · rename_i h; exact .inl ⟨h, rfl⟩
  · rename_i h; exact .inr ⟨h, rfl⟩

theorem globSources_loop (e : ApiEnv) (dir : Str) (l : List Str) (t : TargetSchema) :
    globSourcesLoop e dir l t = some { t with
      sources := t.sources ++ ((l.map (Path.append dir)).filter
        fun p => decide (IsSource e.cfg p)).map fun p => ⟨Path.toPathString p, []⟩ } := by
  induction l generalizing t with
  | nil => simp [globSourcesLoop]
  | cons f fs ih =>
    rw [globSourcesLoop]
    rcases addSource_cases e t (Path.append dir f) with ⟨h1, h2⟩ | ⟨h1, h2⟩
    · rw [if_pos ((isValidSource_iff _ _).2 h1), h2]
      simp [ih, h1, emplaceInfo]
    · rw [if_neg (fun h => h1 ((isValidSource_iff _ _).1 h)), ih]
      simp [h1]

theorem globHeaders_loop (e : ApiEnv) (dir : Str) (l : List Str) (t : TargetSchema) :
    globHeadersLoop e dir l t = some { t with
      headers := t.headers ++ ((l.map (Path.append dir)).filter
        fun p => decide (IsHeader e.cfg p)).map fun p => ⟨Path.toPathString p, []⟩ } := by
  induction l generalizing t with
  | nil => simp [globHeadersLoop]
  | cons f fs ih =>
    rw [globHeadersLoop]
    rcases addHeader_cases e t (Path.append dir f) with ⟨h1, h2⟩ | ⟨h1, h2⟩
    · rw [if_pos ((isValidHeader_iff _ _).2 h1), h2]
      simp [ih, h1, emplaceInfo]
    · rw [if_neg (fun h => h1 ((isValidHeader_iff _ _).1 h)), ih]
      simp [h1]

theorem added_insert (e : ApiEnv) (o : SyncOption) (src : TargetSchema)
    (options : List SyncOption) :
    added e o (.insert src options) =
      (List.replicate (options.count o) (entries o src)).flatten := by
  simp only [added, addsTo]
  induction options with
  | nil => rfl
  | cons x xs ih =>
    by_cases h : x = o
    · subst h
      simp [List.replicate_succ, ih]
    · simp [h, ih]

/-- One call. -/
theorem apply_spec (e : ApiEnv) (t : TargetSchema) (op : ApiOp) :
    (Rejected e op ∧ apply e t op = none) ∨
    (¬ Rejected e op ∧ ∃ t', apply e t op = some t' ∧ SameRest t t' ∧
      ∀ o, ¬ Copies o op → entries o t' = entries o t ++ added e o op) := by
  have rest : SameRest t t := ⟨rfl, rfl, rfl, rfl⟩
  cases op with
  | addSourceAbsolute p =>
    rcases addSource_cases e t p with ⟨h1, h2⟩ | ⟨h1, h2⟩
    · refine .inr ⟨fun h => h h1, _, h2, ⟨rfl, rfl, rfl, rfl⟩, fun o _ => ?_⟩
      cases o <;> simp [entries, added, addsTo, emplaceInfo, stored]
    · exact .inl ⟨h1, h2⟩
  | addSource p dir =>
    rcases addSource_cases e t (Path.append (Path.append e.root dir) p) with ⟨h1, h2⟩ | ⟨h1, h2⟩
    · refine .inr ⟨fun h => h h1, _, h2, ⟨rfl, rfl, rfl, rfl⟩, fun o _ => ?_⟩
      cases o <;> simp [entries, added, addsTo, emplaceInfo, stored]
    · exact .inl ⟨h1, h2⟩
  | globSourcesAbsolute dir =>
    cases hl : e.list dir with
    | none => exact .inl ⟨hl, by simp [apply, globSourcesAbsolute, hl]⟩
    | some l =>
      have hg : apply e t (.globSourcesAbsolute dir) = globSourcesLoop e dir l t := by
        simp [apply, globSourcesAbsolute, hl]
      rw [globSources_loop] at hg
      refine .inr ⟨fun h => by simp [Rejected, hl] at h, _, hg, ⟨rfl, rfl, rfl, rfl⟩,
        fun o _ => ?_⟩
      cases o <;> simp [entries, added, addsTo, filesIn, stored, hl]
  | globSources dir =>
    cases hl : e.list (Path.append e.root dir) with
    | none => exact .inl ⟨hl, by simp [apply, globSourcesAbsolute, hl]⟩
    | some l =>
      have hg : apply e t (.globSources dir) = globSourcesLoop e (Path.append e.root dir) l t := by
        simp [apply, globSourcesAbsolute, hl]
      rw [globSources_loop] at hg
      refine .inr ⟨fun h => by simp [Rejected, hl] at h, _, hg, ⟨rfl, rfl, rfl, rfl⟩,
        fun o _ => ?_⟩
      cases o <;> simp [entries, added, addsTo, filesIn, stored, hl]
  | addHeaderAbsolute p =>
    rcases addHeader_cases e t p with ⟨h1, h2⟩ | ⟨h1, h2⟩
    · refine .inr ⟨fun h => h h1, _, h2, ⟨rfl, rfl, rfl, rfl⟩, fun o _ => ?_⟩
      cases o <;> simp [entries, added, addsTo, emplaceInfo, stored]
    · exact .inl ⟨h1, h2⟩
  | addHeader p dir =>
    rcases addHeader_cases e t (Path.append (Path.append e.root dir) p) with ⟨h1, h2⟩ | ⟨h1, h2⟩
    · refine .inr ⟨fun h => h h1, _, h2, ⟨rfl, rfl, rfl, rfl⟩, fun o _ => ?_⟩
      cases o <;> simp [entries, added, addsTo, emplaceInfo, stored]
    · exact .inl ⟨h1, h2⟩
  | globHeadersAbsolute dir =>
    cases hl : e.list dir with
    | none => exact .inl ⟨hl, by simp [apply, globHeadersAbsolute, hl]⟩
    | some l =>
      have hg : apply e t (.globHeadersAbsolute dir) = globHeadersLoop e dir l t := by
        simp [apply, globHeadersAbsolute, hl]
      rw [globHeaders_loop] at hg
      refine .inr ⟨fun h => by simp [Rejected, hl] at h, _, hg, ⟨rfl, rfl, rfl, rfl⟩,
        fun o _ => ?_⟩
      cases o <;> simp [entries, added, addsTo, filesIn, stored, hl]
  | globHeaders dir =>
    cases hl : e.list (Path.append e.root dir) with
    | none => exact .inl ⟨hl, by simp [apply, globHeadersAbsolute, hl]⟩
    | some l =>
      have hg : apply e t (.globHeaders dir) = globHeadersLoop e (Path.append e.root dir) l t := by
        simp [apply, globHeadersAbsolute, hl]
      rw [globHeaders_loop] at hg
      refine .inr ⟨fun h => by simp [Rejected, hl] at h, _, hg, ⟨rfl, rfl, rfl, rfl⟩,
        fun o _ => ?_⟩
      cases o <;> simp [entries, added, addsTo, filesIn, stored, hl]
  | addIncludeDirAbsolute dir glob =>
    cases glob with
    | false =>
      refine .inr ⟨fun h => by simp [Rejected] at h, _, rfl, ⟨rfl, rfl, rfl, rfl⟩, fun o _ => ?_⟩
      cases o <;> simp [entries, added, addsTo, emplace, storedDir]
    | true =>
      cases hl : e.list dir with
      | none => exact .inl ⟨⟨rfl, hl⟩, by simp [apply, addIncludeDirAbsolute, globHeadersAbsolute, hl]⟩
      | some l =>
        have hg : apply e t (.addIncludeDirAbsolute dir true) = globHeadersLoop e dir l
            { t with includeDirs := emplace t.includeDirs dir } := by
          simp [apply, addIncludeDirAbsolute, globHeadersAbsolute, hl]
        rw [globHeaders_loop] at hg
        refine .inr ⟨fun h => by simp [Rejected, hl] at h, _, hg, ⟨rfl, rfl, rfl, rfl⟩,
          fun o _ => ?_⟩
        cases o <;> simp [entries, added, addsTo, filesIn, stored, storedDir, emplace, hl]
  | addIncludeDir dir glob =>
    cases glob with
    | false =>
      refine .inr ⟨fun h => by simp [Rejected] at h, _, rfl, ⟨rfl, rfl, rfl, rfl⟩, fun o _ => ?_⟩
      cases o <;> simp [entries, added, addsTo, emplace, storedDir]
    | true =>
      cases hl : e.list (Path.append e.root dir) with
      | none => exact .inl ⟨⟨rfl, hl⟩, by simp [apply, addIncludeDirAbsolute, globHeadersAbsolute, hl]⟩
      | some l =>
        have hg : apply e t (.addIncludeDir dir true) = globHeadersLoop e (Path.append e.root dir) l
            { t with includeDirs := emplace t.includeDirs (Path.append e.root dir) } := by
          simp [apply, addIncludeDirAbsolute, globHeadersAbsolute, hl]
        rw [globHeaders_loop] at hg
        refine .inr ⟨fun h => by simp [Rejected, hl] at h, _, hg, ⟨rfl, rfl, rfl, rfl⟩,
          fun o _ => ?_⟩
        cases o <;> simp [entries, added, addsTo, filesIn, stored, storedDir, emplace, hl]
  | addPchAbsolute p =>
    rcases addPch_cases e t p with ⟨h1, h2⟩ | ⟨h1, h2⟩
    · refine .inr ⟨fun h => h h1, _, h2, ⟨rfl, rfl, rfl, rfl⟩, fun o _ => ?_⟩
      cases o <;> simp [entries, added, addsTo, emplaceInfo, stored]
    · exact .inl ⟨h1, h2⟩
  | addPch p dir =>
    rcases addPch_cases e t (Path.append (Path.append e.root dir) p) with ⟨h1, h2⟩ | ⟨h1, h2⟩
    · refine .inr ⟨fun h => h h1, _, h2, ⟨rfl, rfl, rfl, rfl⟩, fun o _ => ?_⟩
      cases o <;> simp [entries, added, addsTo, emplaceInfo, stored]
    · exact .inl ⟨h1, h2⟩
  | addFlag k f =>
    refine .inr ⟨fun h => h, _, rfl, by cases k <;> exact ⟨rfl, rfl, rfl, rfl⟩, fun o _ => ?_⟩
    cases k <;> cases o <;> simp [entries, added, addsTo, addFlag, FlagKind.option]
  | copy src options =>
    refine .inr ⟨fun h => h, _, rfl, (C44_copy t src options).2, fun o ho => ?_⟩
    rw [(C44_copy t src options).1 o, if_neg (show ¬ o ∈ options from ho)]
    simp [added, addsTo]
  | insert src options =>
    refine .inr ⟨fun h => h, _, rfl, (C44_insert t src options).2, fun o _ => ?_⟩
    rw [(C44_insert t src options).1 o, added_insert]
  | addLibDirAbsolute dir =>
    refine .inr ⟨fun h => h, _, rfl, ⟨rfl, rfl, rfl, rfl⟩, fun o _ => ?_⟩
    cases o <;> simp [entries, added, addsTo, emplace, storedDir]
  | addLibDir dir =>
    refine .inr ⟨fun h => h, _, rfl, ⟨rfl, rfl, rfl, rfl⟩, fun o _ => ?_⟩
    cases o <;> simp [entries, added, addsTo, emplace, storedDir]
  | addExternalLib lib =>
    refine .inr ⟨fun h => h, _, rfl, ⟨rfl, rfl, rfl, rfl⟩, fun o _ => ?_⟩
    cases o <;> simp [entries, added, addsTo]
  | addLib p =>
    refine .inr ⟨fun h => h, _, rfl, ⟨rfl, rfl, rfl, rfl⟩, fun o _ => ?_⟩
    cases o <;> simp [entries, added, addsTo, emplaceInfo, stored]
  | addCompileDependencyAbsolute p =>
    refine .inr ⟨fun h => h, _, rfl, ⟨rfl, rfl, rfl, rfl⟩, fun o _ => ?_⟩
    cases o <;> simp [entries, added, addsTo, emplaceInfo, stored]
  | addCompileDependency p =>
    refine .inr ⟨fun h => h, _, rfl, ⟨rfl, rfl, rfl, rfl⟩, fun o _ => ?_⟩
    cases o <;> simp [entries, added, addsTo, emplaceInfo, stored]
  | addLinkDependencyAbsolute p =>
    refine .inr ⟨fun h => h, _, rfl, ⟨rfl, rfl, rfl, rfl⟩, fun o _ => ?_⟩
    cases o <;> simp [entries, added, addsTo, emplaceInfo, stored]
  | addLinkDependency p =>
    refine .inr ⟨fun h => h, _, rfl, ⟨rfl, rfl, rfl, rfl⟩, fun o _ => ?_⟩
    cases o <;> simp [entries, added, addsTo, emplaceInfo, stored]

/-! ## C67 -/

/-- C67: a sequence of calls ends the program exactly when one of the calls is rejected. -/
theorem C67_rejected (e : ApiEnv) (t : TargetSchema) (ops : List ApiOp) :
    applyAll e t ops = none ↔ ∃ op ∈ ops, Rejected e op := by
  induction ops generalizing t with
  | nil => simp [applyAll]
  | cons op ops ih =>
    rw [applyAll]
    rcases apply_spec e t op with ⟨h1, h2⟩ | ⟨h1, t', h2, -⟩
    · simp [h2, h1]
    · simp [h2, h1, ih]

/-- C67: every list of the target has the entries it had, followed by what the calls add to
it, in the order of the calls, unless the list is replaced with `Copy`; nothing but the lists
changes. -/
theorem C67_inputs {e : ApiEnv} {t t' : TargetSchema} {ops : List ApiOp}
    (h : applyAll e t ops = some t') :
    SameRest t t' ∧ ∀ o, (∀ op ∈ ops, ¬ Copies o op) →
      entries o t' = entries o t ++ ops.flatMap (added e o) := by
  induction ops generalizing t with
  | nil =>
    simp only [applyAll, Option.some.injEq] at h
    subst h
    exact ⟨⟨rfl, rfl, rfl, rfl⟩, fun o _ => by simp⟩
  | cons op ops ih =>
    rw [applyAll] at h
    rcases apply_spec e t op with ⟨h1, h2⟩ | ⟨h1, t1, h2, h3, h4⟩
    · simp [h2] at h
    · rw [h2] at h
      obtain ⟨h5, h6⟩ := ih h
      refine ⟨h3.trans h5, fun o ho => ?_⟩
      rw [h6 o fun op hop => ho op (by simp [hop]), h4 o (ho op (by simp))]
      simp

theorem applyAll_append (e : ApiEnv) (t : TargetSchema) (a b : List ApiOp) :
    applyAll e t (a ++ b) = (applyAll e t a).bind fun t => applyAll e t b := by
  induction a generalizing t with
  | nil => rfl
  | cons op a ih =>
    simp only [List.cons_append, applyAll]
    cases apply e t op with
    | none => rfl
    | some t => exact ih t

/-- C67: after the last `Copy` of a list, the list has the entries of the source of the copy,
followed by what the later calls add. -/
theorem C67_copied {e : ApiEnv} {t t' src : TargetSchema} {before after : List ApiOp}
    {options : List SyncOption}
    (h : applyAll e t (before ++ .copy src options :: after) = some t') (o : SyncOption)
    (ho : o ∈ options) (hc : ∀ op ∈ after, ¬ Copies o op) :
    entries o t' = entries o src ++ after.flatMap (added e o) := by
  rw [applyAll_append] at h
  obtain ⟨t1, -, h⟩ := Option.bind_eq_some_iff.1 h
  have h : applyAll e (copy t1 src options) after = some t' := h
  rw [(C67_inputs h).2 o hc, (C44_copy t1 src options).1 o, if_pos ho]

/-- A root directory with two sources and a header in `src`. -/
def exEnv : ApiEnv where
  cfg := {}
  root := b!"/r"
  list d := if d = b!"/r/src" then some [b!"a.cpp", b!"notes.txt", b!"b.c", b!"h.hpp"] else none

example : (applyAll exEnv .empty [.addFlag .link b!"-s", .globSources b!"src",
      .addSource b!"../main.s" b!"sub", .addIncludeDir b!"src" true, .addExternalLib b!"-lm"]).map
      (fun t => (t.sources.map (·.path), t.headers.map (·.path), t.includeDirs, t.externalLibs)) =
    some ([b!"/r/src/a.cpp", b!"/r/src/b.c", b!"/r/main.s"], [b!"/r/src/h.hpp"], [b!"/r/src"],
      [b!"-lm"]) := by decide

example : applyAll exEnv .empty [.addFlag .link b!"-s", .addSource b!"a.txt" b!""] = none :=
  (C67_rejected _ _ _).2 ⟨.addSource b!"a.txt" b!"", by simp, by
    simp only [Rejected]; decide⟩

/-! ## C50 -/

theorem addFlags_entries (k : FlagKind) (l : List Str) (t : TargetSchema) (o : SyncOption) :
    entries o (l.foldl (fun t x => addFlag t x k) t) =
      if o = k.option then entries o t ++ l.map .inr else entries o t := by
  induction l generalizing t with
  | nil => simp
  | cons x xs ih =>
    rw [List.foldl_cons, ih]
    cases k <;> cases o <;> simp [entries, addFlag, FlagKind.option]

/-- C50: a new target has exactly the flags of its toolchain, in each of the eight
categories, and nothing else. -/
theorem C50_new (f : Flags) :
    (∀ k : FlagKind, entries k.option (newTargetInfo f) = (flagsOf f k).map .inr) ∧
    (∀ o : SyncOption, (∀ k : FlagKind, o ≠ k.option) → entries o (newTargetInfo f) = []) := by
  constructor
  · intro k
    cases k <;> simp only [newTargetInfo, addFlags_entries, FlagKind.option, reduceCtorEq,
      if_false, if_true] <;> simp [entries, TargetSchema.empty, flagsOf]
  · intro o ho
    cases o <;> first
      | (simp only [newTargetInfo, addFlags_entries, FlagKind.option, reduceCtorEq, if_false]; rfl)
      | exact absurd rfl (ho .preprocessor) | exact absurd rfl (ho .commonCompile)
      | exact absurd rfl (ho .pchCompile) | exact absurd rfl (ho .pchObject)
      | exact absurd rfl (ho .asmCompile) | exact absurd rfl (ho .cCompile)
      | exact absurd rfl (ho .cppCompile) | exact absurd rfl (ho .link)

/-- The flags that a list of calls adds to one category of a toolchain. -/
def flagsAdded (k : FlagKind) (calls : List (FlagKind × Str)) : List Str :=
  (calls.filter fun c => c.1 = k).map (·.2)

theorem flags_add (calls : List (FlagKind × Str)) (f : Flags) (k : FlagKind) :
    flagsOf (calls.foldl (fun f c => Flags.add f c.2 c.1) f) k = flagsOf f k ++ flagsAdded k calls := by
  induction calls generalizing f with
  | nil => simp [flagsAdded]
  | cons c cs ih =>
    obtain ⟨k', x⟩ := c
    rw [List.foldl_cons, ih]
    by_cases h : k' = k
    · subst h
      cases k' <;> simp [flagsOf, Flags.add, flagsAdded]
    · simp only [flagsAdded, List.filter_cons, h, decide_false, Bool.false_eq_true, if_false]
      congr 1
      cases k' <;> cases k <;> first | rfl | exact absurd rfl h

/-- C50: the flags of a target, in each category, are the flags that were added to its
toolchain, in order, followed by the flags that are added to the target, unless the category
is replaced with `Copy`. -/
theorem C50_flags {e : ApiEnv} {calls : List (FlagKind × Str)} {ops : List ApiOp}
    {t : TargetSchema}
    (h : applyAll e (newTargetInfo (calls.foldl (fun f c => Flags.add f c.2 c.1) {})) ops = some t)
    (k : FlagKind) (hc : ∀ op ∈ ops, ¬ Copies k.option op) :
    entries k.option t =
      (flagsAdded k calls).map .inr ++ ops.flatMap (added e k.option) := by
  rw [(C67_inputs h).2 _ hc, (C50_new _).1, flags_add]
  cases k <;> simp [flagsOf]

example : (applyAll exEnv (newTargetInfo ([(.link, b!"-s"), (.cCompile, b!"-O2"),
      (.link, b!"-g")].foldl (fun f c => Flags.add f c.2 c.1) {}))
      [.addFlag .cCompile b!"-O0", .addFlag .link b!"-x"]).map
      (fun t => (t.linkFlags, t.cCompileFlags, t.cppCompileFlags)) =
    some ([b!"-s", b!"-g", b!"-x"], [b!"-O2", b!"-O0"], []) := by decide

/-! ## C48 -/

/-- Every source, header and header for precompilation has the right extension. -/
def Classified (c : Config) (t : TargetSchema) : Prop :=
  (∀ s ∈ t.sources, IsSource c s.path) ∧ (∀ s ∈ t.headers, IsHeader c s.path) ∧
    (∀ s ∈ t.pchs, IsHeader c s.path)

/-- A plain file name is not changed by normalisation. -/
theorem filename_normal {p : Str} (h1 : Path.filename p ≠ []) (h2 : Path.filename p ≠ Path.dot)
    (h3 : Path.filename p ≠ Path.dotdot) :
    Path.filename (Path.toPathString p) = Path.filename p := by
  have hp : p ≠ [] := by rintro rfl; exact h1 rfl
  obtain ⟨cs, -, hs⟩ := Path.splitSlash_dirPart p
  have hcs : ∀ c ∈ cs, Path.slash ∉ c := fun c hc =>
    Path.mem_splitSlash p c (by rw [hs]; simp [hc])
  have hf : Path.slash ∉ Path.filename p :=
    Path.mem_splitSlash p _ (by rw [hs]; simp)
  rw [Path.toPathString, Path.lexNormal, if_neg hp, hs, List.foldl_append]
  simp only [List.foldl_cons, List.foldl_nil]
  have hg := Path.fold_good (Path.isAbs p) cs ⟨[], false⟩ ⟨[], 0, rfl, by simp, fun _ => rfl⟩ hcs
  generalize cs.foldl (Path.nstep (Path.isAbs p)) ⟨[], false⟩ = st at hg ⊢
  have hn : Path.nstep (Path.isAbs p) st (Path.filename p) = ⟨Path.filename p :: st.stack, false⟩ := by
    rw [Path.nstep, if_neg (by simp [h1, h2]), if_neg h3]
  have hr : ∀ d ∈ st.stack.reverse, Path.slash ∉ d := fun d hd =>
    Path.good_noSlash hg d (List.mem_reverse.1 hd)
  rw [hn, Path.render]
  simp only [List.reverse_cons, Bool.false_eq_true, false_and, if_false, List.append_nil]
  split
  · exact Path.filename_joinSlash _ _ hr hf
  · exact Path.filename_joinSlash' _ _ hr hf

theorem extension_normal {p : Str} (h : Path.extension p ≠ []) :
    Path.extension (Path.toPathString p) = Path.extension p := by
  have hd : Path.filename p ≠ Path.dot ∧ Path.filename p ≠ Path.dotdot := by
    constructor <;> intro hf <;> exact h (by simp [Path.extension, Path.stemExt, hf])
  have he : Path.filename p ≠ [] := fun hf => h (by simp [Path.extension, hf]; decide)
  rw [Path.extension, Path.extension, filename_normal he hd.1 hd.2]

theorem hasExt_normal {l : List Str} {p : Str} (h : HasExt l p) :
    HasExt l (Path.toPathString p) := by
  rw [HasExt, extension_normal h.1]; exact h

theorem isSource_normal {c : Config} {p : Str} (h : IsSource c p) :
    IsSource c (Path.toPathString p) :=
  h.imp hasExt_normal (·.imp hasExt_normal hasExt_normal)

/-- What a list of a classified target contains. -/
def GoodEntry (c : Config) : SyncOption → PathInfo ⊕ Str → Prop
  | .sources, .inl x => IsSource c x.path
  | .headers, .inl x | .pchs, .inl x => IsHeader c x.path
  | _, _ => True

theorem classified_iff (c : Config) (t : TargetSchema) :
    Classified c t ↔ ∀ o, ∀ x ∈ entries o t, GoodEntry c o x := by
  constructor
  · rintro ⟨h1, h2, h3⟩ o x hx
    cases o <;> simp only [entries, List.mem_map] at hx <;> obtain ⟨y, hy, rfl⟩ := hx <;>
      first | exact h1 y hy | exact h2 y hy | exact h3 y hy | trivial
  · intro h
    exact ⟨fun s hs => h .sources (.inl s) (by simp [entries, hs]),
      fun s hs => h .headers (.inl s) (by simp [entries, hs]),
      fun s hs => h .pchs (.inl s) (by simp [entries, hs])⟩

/-- The target from which the call copies, if any, is classified. -/
def GoodOp (c : Config) : ApiOp → Prop
  | .copy src _ | .insert src _ => Classified c src
  | _ => True

theorem added_good {e : ApiEnv} {op : ApiOp} (hr : ¬ Rejected e op) (hg : GoodOp e.cfg op)
    (o : SyncOption) (x : PathInfo ⊕ Str) (hx : x ∈ added e o op) : GoodEntry e.cfg o x := by
  have src : ∀ d, ∀ x ∈ (filesIn e d fun p => decide (IsSource e.cfg p)).map stored,
      GoodEntry e.cfg .sources x := by
    intro d x hx
    simp only [List.mem_map, filesIn, List.mem_filter, decide_eq_true_eq] at hx
    obtain ⟨p, ⟨-, hp⟩, rfl⟩ := hx
    exact isSource_normal hp
  have hdr : ∀ d, ∀ x ∈ (filesIn e d fun p => decide (IsHeader e.cfg p)).map stored,
      GoodEntry e.cfg .headers x := by
    intro d x hx
    simp only [List.mem_map, filesIn, List.mem_filter, decide_eq_true_eq] at hx
    obtain ⟨p, ⟨-, hp⟩, rfl⟩ := hx
    exact hasExt_normal hp
  simp only [added, List.mem_flatMap, List.mem_filter, decide_eq_true_eq] at hx
  obtain ⟨⟨o', l⟩, ⟨hl, ho⟩, hx⟩ := hx
  simp only at ho hx
  subst ho
  cases op with
  | addFlag k f =>
    simp only [addsTo, List.mem_singleton, Prod.mk.injEq] at hl
    obtain ⟨rfl, rfl⟩ := hl
    cases k <;> trivial
  | insert s options =>
    simp only [addsTo, List.mem_map, Prod.mk.injEq] at hl
    obtain ⟨o, -, rfl, rfl⟩ := hl
    exact (classified_iff _ _).1 hg _ x hx
  | copy s options => simp [addsTo] at hl
  | addIncludeDirAbsolute d g =>
    simp only [addsTo, List.mem_cons, List.not_mem_nil, or_false, Prod.mk.injEq] at hl
    rcases hl with ⟨rfl, rfl⟩ | ⟨rfl, rfl⟩
    · simp only [GoodEntry]
    · cases g
      · simp at hx
      · exact hdr _ x hx
  | addIncludeDir d g =>
    simp only [addsTo, List.mem_cons, List.not_mem_nil, or_false, Prod.mk.injEq] at hl
    rcases hl with ⟨rfl, rfl⟩ | ⟨rfl, rfl⟩
    · simp only [GoodEntry]
    · cases g
      · simp at hx
      · exact hdr _ x hx
  | _ =>
    simp only [addsTo, List.mem_singleton, Prod.mk.injEq] at hl
    obtain ⟨rfl, rfl⟩ := hl
    first
      | exact src _ x hx
      | exact hdr _ x hx
      | (simp only [List.mem_singleton] at hx
         subst hx
         first
           | exact isSource_normal (Decidable.not_not.1 hr)
           | exact hasExt_normal (Decidable.not_not.1 hr)
           | trivial)

/-- C48 (partial: a target from which sources are copied must be classified in the same way):
after any sequence of calls, every source has an extension of a C, C++ or assembler file, and
every header and every header for precompilation has an extension of a header. -/
theorem C48_accepted_partial {e : ApiEnv} {t t' : TargetSchema} {ops : List ApiOp}
    (ht : Classified e.cfg t) (hg : ∀ op ∈ ops, GoodOp e.cfg op)
    (h : applyAll e t ops = some t') : Classified e.cfg t' := by
  induction ops generalizing t with
  | nil => simp only [applyAll, Option.some.injEq] at h; exact h ▸ ht
  | cons op ops ih =>
    rw [applyAll] at h
    rcases apply_spec e t op with ⟨h1, h2⟩ | ⟨h1, t1, h2, h3, h4⟩
    · simp [h2] at h
    · rw [h2] at h
      refine ih ?_ (fun op hop => hg op (by simp [hop])) h
      rw [classified_iff] at ht ⊢
      intro o x hx
      by_cases hc : Copies o op
      · cases op with
        | copy src options =>
          have h2 : some (copy t src options) = some t1 := h2
          simp only [Option.some.injEq] at h2
          rw [← h2, (C44_copy t src options).1 o, if_pos (show o ∈ options from hc)] at hx
          exact (classified_iff e.cfg src).1 (hg (.copy src options) (by simp)) o x hx
        | _ => exact absurd hc id
      · rw [h4 o hc, List.mem_append] at hx
        rcases hx with hx | hx
        · exact ht o x hx
        · exact added_good h1 (hg _ (by simp)) o x hx

/-- A language, with its extensions, its compiler and its flags. -/
inductive Lang where
  | c | cpp | asm

def Lang.exts (cfg : Config) : Lang → List Str
  | .c => cfg.validC
  | .cpp => cfg.validCpp
  | .asm => cfg.validAsm

def Lang.compiler (fx : Fixed) : Lang → Str
  | .c => fx.exe.cCompiler
  | .cpp => fx.exe.cppCompiler
  | .asm => fx.exe.assembler

def Lang.flags (t : TargetSchema) : Lang → List Str
  | .c => t.cCompileFlags
  | .cpp => t.cppCompileFlags
  | .asm => t.asmCompileFlags

theorem source_kind (fx : Fixed) (t : TargetSchema) (p : Str) (h : IsSource fx.cfg p) :
    ∃ l : Lang, HasExt (l.exts fx.cfg) p ∧ SourceKind fx t p (l.compiler fx) (l.flags t) := by
  have h0 : Path.extension p ≠ [] := by rcases h with h | h | h <;> exact h.1
  by_cases h1 : Path.extension p ∈ fx.cfg.validC
  · exact ⟨.c, ⟨h0, h1⟩, .c (by simp [Config.fileExt, h0, h1])⟩
  · by_cases h2 : Path.extension p ∈ fx.cfg.validCpp
    · exact ⟨.cpp, ⟨h0, h2⟩, .cpp (by simp [Config.fileExt, h0, h1, h2])⟩
    · have h3 : Path.extension p ∈ fx.cfg.validAsm := by
        rcases h with h | h | h
        · exact absurd h.2 h1
        · exact absurd h.2 h2
        · exact h.2
      exact ⟨.asm, ⟨h0, h3⟩, .asm (by simp [Config.fileExt, h0, h1, h2, h3])⟩

/-- C48: every source with a C, C++ or assembler extension is compiled with the compiler and
the flags of a language that has this extension: of the only one, if the extensions of the
languages are disjoint. -/
theorem C48_compiled (fx : Fixed) (t : TargetSchema) (p : Str) (h : IsSource fx.cfg p) :
    ∃ l : Lang, HasExt (l.exts fx.cfg) p ∧
      (fx.tcfg.compileCommand = gccCompileTemplate →
        compileCommand fx t p = .value (spaced
          [ Path.displayString (l.compiler fx), spaced t.preprocessorFlags,
            spaced (t.includeDirs.map (fx.cfg.prefixIncludeDir ++ ·)),
            spaced t.commonCompileFlags, spaced (if t.pchs ≠ [] then t.pchObjectFlags else []),
            spaced (l.flags t), b!"-o", Path.displayString (objPath fx p), b!"-c", p ])) ∧
      (fx.tcfg.compileCommand = msvcCompileTemplate →
        compileCommand fx t p = .value (spaced
          [ Path.displayString (l.compiler fx), spaced t.preprocessorFlags,
            spaced (t.includeDirs.map (fx.cfg.prefixIncludeDir ++ ·)),
            spaced t.commonCompileFlags, spaced (if t.pchs ≠ [] then t.pchObjectFlags else []),
            spaced (l.flags t), b!"/Fo" ++ Path.displayString (objPath fx p), b!"/c", p ])) := by
  obtain ⟨l, h1, h2⟩ := source_kind fx t p h
  exact ⟨l, h1, fun ht => gcc_compile_command fx t p _ _ ht h2,
    fun ht => msvc_compile_command fx t p _ _ ht h2⟩

/-- C48: a file without such an extension is never accepted, neither as a source nor as a
header: the call ends the program. -/
theorem C48_refused (e : ApiEnv) (t : TargetSchema) (p dir : Str) :
    (¬ IsSource e.cfg p → apply e t (.addSourceAbsolute p) = none) ∧
    (¬ IsSource e.cfg (Path.append (Path.append e.root dir) p) →
      apply e t (.addSource p dir) = none) ∧
    (¬ IsHeader e.cfg p → apply e t (.addHeaderAbsolute p) = none ∧
      apply e t (.addPchAbsolute p) = none) ∧
    (¬ IsHeader e.cfg (Path.append (Path.append e.root dir) p) →
      apply e t (.addHeader p dir) = none ∧ apply e t (.addPch p dir) = none) := by
  have key : ∀ op, Rejected e op → apply e t op = none := by
    intro op h
    rcases apply_spec e t op with h' | h'
    · exact h'.2
    · exact absurd h h'.1
  exact ⟨fun h => key _ h, fun h => key _ h, fun h => ⟨key _ h, key _ h⟩,
    fun h => ⟨key _ h, key _ h⟩⟩

/-- A GCC target. -/
def exFx : Fixed where
  name := b!"t"
  rootDir := b!"/r"
  buildDir := b!"/b"
  cfg := {}
  exe := { assembler := b!"as", cCompiler := b!"gcc", cppCompiler := b!"g++", archiver := b!"ar",
           linker := b!"ld" }
  tcfg := gccExe

example : (applyAll exEnv .empty [.globSources b!"src", .addSource b!"./x/..//m.s" b!"",
      .addPch b!"p.hpp" b!"", .insert { TargetSchema.empty with sources := [⟨b!"/q/z.cc", []⟩] }
      [.sources]]).map (fun t => t.sources.map fun s => compileCommand exFx t s.path) =
    some [.value b!"g++      -o /b/src/a.cpp.o -c /r/src/a.cpp",
      .value b!"gcc      -o /b/src/b.c.o -c /r/src/b.c",
      .value b!"as      -o /b/m.s.o -c /r/m.s",
      .value b!"g++      -o /b/__/q/z.cc.o -c /q/z.cc"] := by decide +kernel

/-- A target of a toolchain for which `.m` files are C files. -/
def exOther : ApiEnv := { exEnv with cfg := { validC := [b!".m"] } }

/-- C48 is false when sources are copied from a target of another toolchain: such a file is
accepted although the toolchain has no language for it, and its compile command has no
compiler. -/
theorem C48_copied_false :
    ∃ other mine : TargetSchema,
      applyAll exOther .empty [.addSource b!"a.m" b!""] = some other ∧
      applyAll exEnv .empty [.copy other [.sources]] = some mine ∧
      ¬ Classified exEnv.cfg mine ∧
      exFx.cfg = exEnv.cfg ∧
      mine.sources.map (fun s => compileCommand exFx mine s.path) =
        [.value b!"      -o /b/a.m.o -c /r/a.m"] := by
  refine ⟨_, _, rfl, rfl, fun h => ?_, rfl, by decide +kernel⟩
  have := h.1 ⟨b!"/r/a.m", []⟩ (by decide)
  revert this
  decide

end Verif.Target
