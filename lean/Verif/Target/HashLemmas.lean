import Verif.Target.Spec
import Verif.Json.Lemmas

/-! # Lemmas about hashes, configurations and commands -/

namespace Verif.Target
open Verif Verif.Command Verif.Schema Verif.Json

@[simp] theorem settle_files (σ : Sys) : σ.settle.files = σ.files := rfl
@[simp] theorem settle_used (σ : Sys) : σ.settle.used = σ.used := rfl
@[simp] theorem settle_objs (σ : Sys) : σ.settle.objs = σ.objs := rfl
@[simp] theorem settle_pch (σ : Sys) : σ.settle.pch = σ.pch := rfl
@[simp] theorem settle_bin (σ : Sys) : σ.settle.bin = σ.bin := rfl
@[simp] theorem settle_stateFile (σ : Sys) : σ.settle.stateFile = σ.stateFile := rfl
@[simp] theorem settle_run (σ : Sys) : σ.settle.run = σ.run := rfl
@[simp] theorem settle_ok (σ : Sys) : σ.settle.ok = σ.ok := rfl
@[simp] theorem settle_log (σ : Sys) : σ.settle.log = σ.log := rfl
@[simp] theorem settle_done (σ : Sys) : σ.settle.done = σ.done := rfl
@[simp] theorem settle_saved (σ : Sys) : σ.settle.saved = σ.saved := rfl
@[simp] theorem settle_fresh (σ : Sys) : σ.settle.fresh = σ.fresh := rfl
@[simp] theorem settle_lost (σ : Sys) : σ.settle.lost = σ.lost := rfl

/-- The hash of an entry was computed from a version that the file had. -/
def Rec (σ : Sys) (i : PathInfo) : Prop := ∃ t, t ∈ σ.used i.path ∧ i.hash = digits t

/-- ... and the file has another version now, or is gone. -/
def Dead (σ : Sys) (i : PathInfo) : Prop :=
  ∃ t, t ∈ σ.used i.path ∧ i.hash = digits t ∧ σ.files i.path ≠ some t

/-- ... and the file still has this version. -/
def Live (σ : Sys) (i : PathInfo) : Prop := ∃ t, σ.files i.path = some t ∧ i.hash = digits t

/-- The current version of every file is used up. -/
def WF (σ : Sys) : Prop := ∀ p t, σ.files p = some t → t ∈ σ.used p

/-- A version that was recorded and is still there was there all the time. -/
def Steady (σ : Sys) (i : PathInfo) : Prop := Live σ i → ∀ v ∈ σ.seen i.path, v = σ.files i.path

/-- Commands that start now read the present versions. -/
def Settled (σ : Sys) : Prop := (∀ p, σ.seen p = [σ.files p]) ∧ σ.view = σ.files

theorem settle_settled (σ : Sys) : Settled σ.settle := ⟨fun _ => rfl, rfl⟩

theorem Settled.steady {σ : Sys} (h : Settled σ) (i : PathInfo) : Steady σ i := by
  intro _ v hv
  rw [h.1] at hv
  simpa using hv

theorem Live.rec' {σ : Sys} (hw : WF σ) {i : PathInfo} (h : Live σ i) : Rec σ i := by
  obtain ⟨t, h1, h2⟩ := h
  exact ⟨t, hw _ _ h1, h2⟩

theorem Live.not_dead {σ : Sys} {i : PathInfo} (h : Live σ i) : ¬ Dead σ i := by
  rintro ⟨t, _, h2, h3⟩
  obtain ⟨t', h1', h2'⟩ := h
  rw [h2] at h2'
  exact h3 (by rw [h1', digits_inj h2'])

theorem Rec.dead_or_live {σ : Sys} {i : PathInfo} (h : Rec σ i) : Dead σ i ∨ Live σ i := by
  obtain ⟨t, h1, h2⟩ := h
  by_cases hf : σ.files i.path = some t
  · exact .inr ⟨t, hf, h2⟩
  · exact .inl ⟨t, h1, h2, hf⟩

theorem live_hash {σ : Sys} {i : PathInfo} (h : Live σ i) :
    fileHash σ.files i.path = some i.hash := by
  obtain ⟨t, h1, h2⟩ := h
  simp [fileHash, h1, h2]

theorem live_unique {σ : Sys} {i j : PathInfo} (hi : Live σ i) (hj : Live σ j)
    (h : i.path = j.path) : i = j := by
  have h1 := live_hash hi
  have h2 := live_hash hj
  rw [h, h2] at h1
  cases i; cases j; simp_all

@[simp] theorem paths_nil : paths [] = [] := rfl
@[simp] theorem paths_cons (i : PathInfo) (l : List PathInfo) : paths (i :: l) = i.path :: paths l := rfl
@[simp] theorem paths_append (a b : List PathInfo) : paths (a ++ b) = paths a ++ paths b := by
  simp [paths]

theorem mem_paths {l : List PathInfo} {p : Str} : p ∈ paths l ↔ ∃ i ∈ l, i.path = p := by
  simp [paths]

theorem paths_eq_nil {l : List PathInfo} : paths l = [] ↔ l = [] := by simp [paths]

theorem hashAll_paths (f : Str → Option Nat) (l : List PathInfo) :
    paths (hashAll f l).1 = paths l := by
  induction l with
  | nil => rfl
  | cons i l ih =>
    simp only [hashAll]
    split
    · rfl
    · simp [ih]

theorem hashAll_live (σ : Sys) (l : List PathInfo) (h : (hashAll σ.files l).2 = true) :
    ∀ i ∈ (hashAll σ.files l).1, Live σ i := by
  induction l with
  | nil => simp [hashAll]
  | cons i l ih =>
    simp only [hashAll] at h ⊢
    split at h
    · exact absurd h (by simp)
    · rename_i hh heq
      intro j hj
      rcases List.mem_cons.1 hj with rfl | hj
      · simp only [fileHash, Option.map_eq_some_iff] at heq
        obtain ⟨t, h1, h2⟩ := heq
        exact ⟨t, h1, h2.symm⟩
      · exact ih h j hj

theorem hashAll_still (σ : Sys) (l : List PathInfo)
    (h : ∀ i ∈ l, Live σ i ∨ σ.files i.path = none) : (hashAll σ.files l).1 = l := by
  induction l with
  | nil => rfl
  | cons i l ih =>
    simp only [hashAll]
    split
    · rfl
    · rename_i hh heq
      rw [ih fun j hj => h j (List.mem_cons_of_mem _ hj)]
      rcases h i List.mem_cons_self with hl | hn
      · rw [live_hash hl] at heq
        cases i
        simp_all
      · simp [fileHash, hn] at heq

theorem live_ext {σ : Sys} : ∀ {a b : List PathInfo}, paths a = paths b →
    (∀ i ∈ a, Live σ i) → (∀ i ∈ b, Live σ i) → a = b
  | [], [], _, _, _ => rfl
  | [], _ :: _, h, _, _ => by simp at h
  | _ :: _, [], h, _, _ => by simp at h
  | i :: a, j :: b, h, ha, hb => by
    simp only [paths_cons, List.cons.injEq] at h
    rw [live_unique (ha i List.mem_cons_self) (hb j List.mem_cons_self) h.1,
      live_ext h.2 (fun k hk => ha k (List.mem_cons_of_mem _ hk))
        (fun k hk => hb k (List.mem_cons_of_mem _ hk))]

/-- A recorded list that differs from the current one contains an outdated entry. -/
theorem neq_dead {σ : Sys} {a b : List PathInfo} (hp : paths a = paths b)
    (ha : ∀ i ∈ a, Rec σ i) (hb : ∀ i ∈ b, Live σ i) (hne : a ≠ b) : ∃ i ∈ a, Dead σ i := by
  by_cases h : ∃ i ∈ a, Dead σ i
  · exact h
  · exfalso
    refine hne (live_ext hp (fun i hi => ?_) hb)
    rcases (ha i hi).dead_or_live with hd | hl
    · exact absurd ⟨i, hi, hd⟩ h
    · exact hl

/-- Versions as recorded. -/
def rd (l : List PathInfo) : Reads := l.map fun i => (i.path, some i.hash)

theorem versions_of_live {σ : Sys} {a b : List PathInfo} (hp : paths a = paths b)
    (ha : ∀ i ∈ a, Live σ i) : rd a = versions σ.files b := by
  have h1 : rd a = versions σ.files a := by
    simp only [rd, versions, List.map_inj_left, Prod.mk.injEq, true_and]
    intro i hi
    exact (live_hash (ha i hi)).symm
  rw [h1]
  have : ∀ l : List PathInfo, versions σ.files l = (paths l).map fun p => (p, version σ.files p) := by
    intro l; simp [versions, paths]
  rw [this, this, hp]

theorem reads_eq_versions (f : Str → Option Nat) (l : List PathInfo) : reads f l = versions f l := rfl

/-! ## Configurations up to hashes -/

/-- The same configuration, hashes and result flags left aside. -/
structure SameCfg (a b : TargetSchema) : Prop where
  sources : paths a.sources = paths b.sources
  headers : paths a.headers = paths b.headers
  pchs : paths a.pchs = paths b.pchs
  libs : paths a.libs = paths b.libs
  compileDeps : paths a.compileDeps = paths b.compileDeps
  linkDeps : paths a.linkDeps = paths b.linkDeps
  externalLibs : a.externalLibs = b.externalLibs
  includeDirs : a.includeDirs = b.includeDirs
  libDirs : a.libDirs = b.libDirs
  preprocessorFlags : a.preprocessorFlags = b.preprocessorFlags
  commonCompileFlags : a.commonCompileFlags = b.commonCompileFlags
  pchCompileFlags : a.pchCompileFlags = b.pchCompileFlags
  pchObjectFlags : a.pchObjectFlags = b.pchObjectFlags
  asmCompileFlags : a.asmCompileFlags = b.asmCompileFlags
  cCompileFlags : a.cCompileFlags = b.cCompileFlags
  cppCompileFlags : a.cppCompileFlags = b.cppCompileFlags
  linkFlags : a.linkFlags = b.linkFlags

theorem SameCfg.refl (a : TargetSchema) : SameCfg a a := by constructor <;> rfl

theorem SameCfg.symm {a b : TargetSchema} (h : SameCfg a b) : SameCfg b a := by
  cases h; constructor <;> simp_all

theorem SameCfg.trans {a b c : TargetSchema} (h : SameCfg a b) (h' : SameCfg b c) : SameCfg a c := by
  cases h; cases h'; constructor <;> simp_all

theorem nil_iff_of_paths {a b : List PathInfo} (h : paths a = paths b) : a = [] ↔ b = [] := by
  rw [← paths_eq_nil, h, paths_eq_nil]

theorem SameCfg.pchs_nil {a b : TargetSchema} (h : SameCfg a b) : a.pchs = [] ↔ b.pchs = [] :=
  nil_iff_of_paths h.pchs

theorem SameCfg.samePch {a b : TargetSchema} (h : SameCfg a b) : SamePch a b := by
  cases h; constructor <;> assumption

theorem SameCfg.sameObj {a b : TargetSchema} (h : SameCfg a b) : SameObj a b := by
  cases h; constructor <;> assumption

theorem SameCfg.sameLink {a b : TargetSchema} (h : SameCfg a b) : SameLink a b := by
  have hs := h.sources
  cases h
  constructor <;> first | assumption | (intro p; rw [hs])

theorem SamePch.symm {a b : TargetSchema} (h : SamePch a b) : SamePch b a := by
  cases h; constructor <;> simp_all
theorem SamePch.trans {a b c : TargetSchema} (h : SamePch a b) (h' : SamePch b c) : SamePch a c := by
  cases h; cases h'; constructor <;> simp_all
theorem SameObj.symm {a b : TargetSchema} (h : SameObj a b) : SameObj b a := by
  cases h; constructor <;> simp_all
theorem SameObj.trans {a b c : TargetSchema} (h : SameObj a b) (h' : SameObj b c) : SameObj a c := by
  cases h; cases h'; constructor <;> simp_all
theorem SameLink.symm {a b : TargetSchema} (h : SameLink a b) : SameLink b a := by
  cases h; constructor <;> simp_all
theorem SameLink.trans {a b c : TargetSchema} (h : SameLink a b) (h' : SameLink b c) : SameLink a c := by
  cases h; cases h'; constructor <;> simp_all

theorem containsCpp_paths (fx : Fixed) {a b : TargetSchema} (h : paths a.sources = paths b.sources) :
    containsCpp fx a = containsCpp fx b := by
  have : ∀ u : TargetSchema, containsCpp fx u = (paths u.sources).any fun p => fx.cfg.fileExt p == .cpp := by
    intro u; simp [containsCpp, paths, List.any_map, Function.comp_def]
  rw [this, this, h]

theorem SameCfg.containsCpp (fx : Fixed) {a b : TargetSchema} (h : SameCfg a b) :
    containsCpp fx a = Target.containsCpp fx b := containsCpp_paths fx h.sources

theorem SameCfg.defaults (fx : Fixed) {a b : TargetSchema} (h : SameCfg a b) :
    defaults fx a = Target.defaults fx b := by
  have hp := h.pchs_nil
  cases h
  simp_all [Target.defaults, baseDefaults, pchDefaults]

theorem SameCfg.compileCommand (fx : Fixed) {a b : TargetSchema} (h : SameCfg a b) (s : Str) :
    compileCommand fx a s = Target.compileCommand fx b s := by
  have hd := h.defaults fx
  cases h
  unfold Target.compileCommand
  rw [hd]
  congr 1
  simp_all only [compileArgs, selectCompileFlags]

theorem SameCfg.pchCommand (fx : Fixed) {a b : TargetSchema} (h : SameCfg a b) :
    pchCommand fx a = Target.pchCommand fx b := by
  have hd := h.defaults fx
  have hc := h.containsCpp fx
  cases h
  unfold Target.pchCommand
  rw [hd]
  congr 1
  simp_all only [pchArgs, selectCompileFlags]

theorem SameCfg.linkCommand (fx : Fixed) {a b : TargetSchema} (h : SameCfg a b) (o : List Str) :
    linkCommand fx a o = Target.linkCommand fx b o := by
  have hd := h.defaults fx
  have hl := h.libs
  have he := h.externalLibs
  unfold Target.linkCommand
  rw [hd]
  congr 1
  unfold paths at hl
  simp only [linkArgs, hl, he]

/-- The link command depends on compile inputs only through the defaults. -/
theorem linkCommand_congr (fx : Fixed) {a b : TargetSchema} (ho : SameObj a b)
    (hl : SameLink a b) (hp : a.pchs = [] ↔ b.pchs = [])
    (hpf : a.pchs ≠ [] → a.pchCompileFlags = b.pchCompileFlags) (o : List Str) :
    linkCommand fx a o = linkCommand fx b o := by
  have hd : defaults fx a = defaults fx b := by
    have h2 : pchDefaults fx a = pchDefaults fx b := by
      unfold pchDefaults
      by_cases hn : a.pchs = []
      · simp [hn, hp.1 hn]
      · rw [if_pos hn, if_pos (fun h => hn (hp.2 h)), hpf hn, ho.pchFlags]
    have h1 : baseDefaults fx a = baseDefaults fx b := by
      unfold baseDefaults
      rw [ho.includes, hl.libDirs, ho.preprocessor, ho.common, hl.flags]
    unfold defaults
    rw [h1, h2]
  have h3 := hl.libs
  unfold paths at h3
  unfold linkCommand
  rw [hd]
  congr 1
  simp only [linkArgs, h3, hl.external]

end Verif.Target
