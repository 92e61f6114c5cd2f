import Verif.Toolchain.Find
import Verif.Path.ObjLemmas
import Verif.Env.UtilProps

/-! # Searching for toolchains (C46, C47, C51, C65) -/

namespace Verif.Toolchain
open Verif Verif.Env Verif.Target

/-! ## Specification -/

/-- `f` can be the name of an entry of a directory. -/
def EntryName (f : Str) : Prop := f ≠ [] ∧ f ≠ b!"." ∧ f ≠ b!".." ∧ Path.slash ∉ f

/-- The file name `f` is the name `exe`, in which a dot can only be the first character, or
`exe` followed by one extension. -/
def FileFor (exe f : Str) : Prop :=
  (f = exe ∧ c!"." ∉ exe.tail) ∨ (exe ≠ [] ∧ ∃ x, c!"." ∉ x ∧ f = exe ++ c!"." :: x)

/-- The directory has a regular file for each of the executables. -/
def HasAll (h : Host) (exes : Executables) (d : Str) : Prop :=
  ∃ l, h.dir d = .entries l ∧
    ∀ e ∈ [exes.assembler, exes.cCompiler, exes.cppCompiler, exes.archiver, exes.linker],
      ∃ f, (f, true) ∈ l ∧ FileFor e f

/-- The directories that are searched, in order: the given ones, then the entries of the
environment variables. -/
def Searched (h : Host) (cfg : FindConfig) (paths : List Str) : Prop :=
  ∃ ls : List (List Str), ls.length = cfg.envVars.length ∧
    (∀ (i : Nat) v l, cfg.envVars[i]? = some v → ls[i]? = some l →
      ∃ s, h.getenv v = some s ∧ l = split s h.delim) ∧
    paths = cfg.absoluteSearchPaths ++ ls.flatten

/-- Every directory lists proper names. -/
def Host.WF (h : Host) : Prop := ∀ d l, h.dir d = .entries l → ∀ e ∈ l, EntryName e.1

/-! ## Stems -/

theorem lastDot_none {f : Str} : Path.lastDot f = none ↔ c!"." ∉ f := by
  induction f with
  | nil => simp [Path.lastDot]
  | cons b r ih =>
    simp only [Path.lastDot, List.mem_cons, not_or]
    cases h : Path.lastDot r with
    | some x =>
      simp only [reduceCtorEq, false_iff, not_and, Classical.not_not]
      intro _
      apply Classical.byContradiction
      intro hn
      rw [h] at ih
      simp [hn] at ih
    | none =>
      rw [h] at ih
      simp only [true_iff] at ih
      by_cases hb : b = c!"."
      · simp [hb]
      · simp only [hb, if_false, true_iff]
        exact ⟨fun e => hb e.symm, ih⟩

theorem lastDot_some {f s e : Str} : Path.lastDot f = some (s, e) ↔
    ∃ x, e = c!"." :: x ∧ c!"." ∉ x ∧ f = s ++ c!"." :: x := by
  induction f generalizing s e with
  | nil => simp [Path.lastDot]
  | cons b r ih =>
    simp only [Path.lastDot]
    cases h : Path.lastDot r with
    | some y =>
      obtain ⟨s', e'⟩ := y
      obtain ⟨x', h1, h2, h3⟩ := ih.1 h
      simp only [Option.some.injEq, Prod.mk.injEq]
      constructor
      · rintro ⟨rfl, rfl⟩
        exact ⟨x', h1, h2, by rw [h3]; rfl⟩
      · rintro ⟨x, rfl, hx, hf⟩
        cases s with
        | nil =>
          simp only [List.nil_append, List.cons.injEq] at hf
          exact absurd (by rw [← hf.2, h3]; simp) hx
        | cons b' s =>
          simp only [List.cons_append, List.cons.injEq] at hf
          have := ih.2 ⟨x, rfl, hx, hf.2⟩
          rw [h] at this
          simp only [Option.some.injEq, Prod.mk.injEq] at this
          exact ⟨by rw [hf.1, this.1], this.2⟩
    | none =>
      have hr := lastDot_none.1 h
      by_cases hb : b = c!"."
      · simp only [hb, if_true, Option.some.injEq, Prod.mk.injEq]
        constructor
        · rintro ⟨rfl, rfl⟩; exact ⟨r, rfl, hr, rfl⟩
        · rintro ⟨x, rfl, hx, hf⟩
          cases s with
          | nil =>
            simp only [List.nil_append, List.cons.injEq, true_and] at hf
            simp [hf]
          | cons b' s =>
            simp only [List.cons_append, List.cons.injEq] at hf
            exact absurd (by rw [hf.2]; simp) hr
      · simp only [hb, if_false, reduceCtorEq, false_iff]
        rintro ⟨x, rfl, hx, hf⟩
        cases s with
        | nil =>
          simp only [List.nil_append, List.cons.injEq] at hf
          exact hb hf.1
        | cons b' s =>
          simp only [List.cons_append, List.cons.injEq] at hf
          exact hr (by rw [hf.2]; simp)

theorem filename_entry {d f : Str} (hf : EntryName f) : Path.filename (Path.append d f) = f := by
  rw [Path.append_rel _ _ (Path.isAbs_noSlash _ hf.2.2.2)]
  exact Path.filename_unique _ _ hf.2.2.2 (Path.asDir_end d)

/-- The stem of an entry is the name of the executable exactly when the entry is a file for
it. -/
theorem stem_entry {d f exe : Str} (hf : EntryName f) :
    Path.stem (Path.append d f) = exe ↔ FileFor exe f := by
  rw [Path.stem, filename_entry hf, Path.stemExt,
    if_neg (fun h => h.elim hf.2.1 hf.2.2.1)]
  cases h : Path.lastDot f with
  | none =>
    have hd := lastDot_none.1 h
    constructor
    · intro h'
      have h' : f = exe := h'
      subst h'
      exact .inl ⟨rfl, fun hm => hd (List.mem_of_mem_tail hm)⟩
    · rintro (⟨h1, -⟩ | ⟨-, x, -, h1⟩)
      · exact h1
      · exact absurd (by rw [h1]; simp) hd
  | some y =>
    obtain ⟨s, e⟩ := y
    obtain ⟨x, rfl, hx, hfx⟩ := lastDot_some.1 h
    cases s with
    | nil =>
      constructor
      · intro h'
        have h' : f = exe := h'
        subst h'
        exact .inl ⟨rfl, by rw [hfx]; exact hx⟩
      · rintro (⟨h1, -⟩ | ⟨h0, y, hy, h1⟩)
        · exact h1
        · obtain ⟨c, exe', rfl⟩ := List.exists_cons_of_ne_nil h0
          rw [hfx] at h1
          simp only [List.nil_append, List.cons_append, List.cons.injEq] at h1
          exact absurd (by rw [h1.2]; simp) hx
    | cons b s =>
      constructor
      · intro h'
        have h' : b :: s = exe := h'
        subst h'
        exact .inr ⟨by simp, x, hx, hfx⟩
      · rintro (⟨h1, h2⟩ | ⟨h0, y, hy, h1⟩)
        · exfalso
          apply h2
          rw [← h1, hfx]
          simp
        · have := lastDot_some.2 ⟨y, rfl, hy, h1⟩
          rw [h] at this
          simp only [Option.some.injEq, Prod.mk.injEq] at this
          exact this.1

/-! ## C46 -/

theorem contains_iff {d : Str} {l : List (Str × Bool)} (hl : ∀ e ∈ l, EntryName e.1)
    (exes : List Str) :
    containsExecutables d l exes = true ↔ ∀ e ∈ exes, ∃ f, (f, true) ∈ l ∧ FileFor e f := by
  induction l generalizing exes with
  | nil =>
    cases exes with
    | nil => simp [containsExecutables]
    | cons e es =>
      simp only [containsExecutables, List.foldl_nil, List.isEmpty_cons, Bool.false_eq_true,
        List.not_mem_nil, false_and, exists_false, false_iff]
      exact fun h => h e (by simp)
  | cons x xs ih =>
    obtain ⟨f, r⟩ := x
    have hxs : ∀ e ∈ xs, EntryName e.1 := fun e he => hl e (by simp [he])
    have hf : EntryName f := hl (f, r) (by simp)
    cases r with
    | false =>
      rw [show containsExecutables d ((f, false) :: xs) exes = containsExecutables d xs exes
        from rfl, ih hxs]
      refine forall_congr' fun e => forall_congr' fun _ => exists_congr fun g => ?_
      simp
    | true =>
      rw [show containsExecutables d ((f, true) :: xs) exes = containsExecutables d xs
        (exes.filter (· ≠ Path.stem (Path.append d f))) from rfl, ih hxs]
      constructor
      · intro h e he
        by_cases hs : e = Path.stem (Path.append d f)
        · exact ⟨f, by simp, (stem_entry hf).1 hs.symm⟩
        · obtain ⟨g, hg, hg'⟩ := h e (by simp [he, hs])
          exact ⟨g, by simp [hg], hg'⟩
      · intro h e he
        simp only [List.mem_filter, decide_eq_true_eq] at he
        obtain ⟨g, hg, hg'⟩ := h e he.1
        rcases List.mem_cons.1 hg with hg | hg
        · simp only [Prod.mk.injEq, and_true] at hg
          subst hg
          exact absurd ((stem_entry hf).2 hg').symm he.2
        · exact ⟨g, hg, hg'⟩

theorem searchPaths_iff (h : Host) (paths vars r : List Str) :
    searchPaths h paths vars = some r ↔
      ∃ ls : List (List Str), ls.length = vars.length ∧
        (∀ (i : Nat) v l, vars[i]? = some v → ls[i]? = some l →
          ∃ s, h.getenv v = some s ∧ l = split s h.delim) ∧ r = paths ++ ls.flatten := by
  induction vars generalizing paths with
  | nil =>
    simp only [searchPaths, Option.some.injEq]
    constructor
    · rintro rfl; exact ⟨[], rfl, by simp, by simp⟩
    · rintro ⟨ls, hl, -, rfl⟩
      rw [show ls = [] by simpa using hl]
      simp
  | cons v vs ih =>
    simp only [searchPaths, parseEnvVarToPaths]
    cases hv : h.getenv v with
    | none =>
      simp only [reduceCtorEq, false_iff]
      rintro ⟨ls, hl, hh, -⟩
      cases ls with
      | nil => simp at hl
      | cons l ls =>
        obtain ⟨s, hs, -⟩ := hh 0 v l rfl rfl
        rw [hv] at hs
        simp at hs
    | some s =>
      simp only [ih]
      constructor
      · rintro ⟨ls, hl, hh, rfl⟩
        refine ⟨split s h.delim :: ls, by simp [hl], ?_, by simp⟩
        intro i w l hw hl'
        cases i with
        | zero =>
          simp only [List.getElem?_cons_zero, Option.some.injEq] at hw hl'
          exact ⟨s, hw ▸ hv, hl'.symm⟩
        | succ i =>
          simp only [List.getElem?_cons_succ] at hw hl'
          exact hh i w l hw hl'
      · rintro ⟨ls, hl, hh, rfl⟩
        cases ls with
        | nil => simp at hl
        | cons l ls =>
          obtain ⟨s', hs', hls⟩ := hh 0 v l rfl rfl
          rw [hv] at hs'
          simp only [Option.some.injEq] at hs'
          subst hs' hls
          exact ⟨ls, by simpa using hl, fun i w l hw hl' => hh (i + 1) w l (by simpa using hw)
            (by simpa using hl'), by simp⟩

theorem findLoop_iff {h : Host} (hw : h.WF) (exes : Executables) (found paths r : List Str) :
    findLoop h exes found paths = some r ↔
      (∀ p ∈ paths, h.dir p ≠ .statError) ∧
      ∃ p : Str → Bool, (∀ d ∈ paths, p d = true ↔ HasAll h exes d) ∧
        r = found ++ paths.filter p := by
  classical
  have hp : ∀ (l : List Str) (p q : Str → Bool), (∀ d ∈ l, p d = true ↔ HasAll h exes d) →
      (∀ d ∈ l, q d = true ↔ HasAll h exes d) → l.filter p = l.filter q := by
    intro l p q h1 h2
    refine List.filter_congr fun d hd => ?_
    have := (h1 d hd).trans (h2 d hd).symm
    cases hpd : p d <;> cases hqd : q d <;> simp_all
  suffices hs : findLoop h exes found paths = some r ↔
      (∀ p ∈ paths, h.dir p ≠ .statError) ∧
        r = found ++ paths.filter (fun d => decide (HasAll h exes d)) by
    rw [hs]
    refine and_congr_right fun _ => ⟨fun he => ⟨_, fun d _ => decide_eq_true_iff, he⟩, ?_⟩
    rintro ⟨p, h1, rfl⟩
    rw [hp paths p (fun d => decide (HasAll h exes d)) h1 fun d _ => decide_eq_true_iff]
  induction paths generalizing found with
  | nil => simp [findLoop, eq_comm]
  | cons d ds ih =>
    rw [findLoop]
    cases hd : h.dir d with
    | missing =>
      have : ¬ HasAll h exes d := by rintro ⟨l, hl, -⟩; rw [hd] at hl; simp at hl
      simp [ih, hd, this]
    | statError => simp [hd]
    | unreadable =>
      have : ¬ HasAll h exes d := by rintro ⟨l, hl, -⟩; rw [hd] at hl; simp at hl
      simp [ih, hd, this]
    | entries l =>
      have hc : containsExecutables d l (Exes.all exes) = true ↔ HasAll h exes d := by
        rw [contains_iff (hw d l hd)]
        constructor
        · exact fun hh => ⟨l, hd, hh⟩
        · rintro ⟨l', hl', hh⟩
          rw [hd] at hl'
          simp only [DirState.entries.injEq] at hl'
          subst hl'
          exact hh
      simp only [ih]
      by_cases hh : HasAll h exes d
      · simp [hd, hc.2 hh, hh]
      · have : containsExecutables d l (Exes.all exes) = false := by
          cases hx : containsExecutables d l (Exes.all exes) with
          | false => rfl
          | true => exact absurd (hc.1 hx) hh
        simp [hd, this, hh]

/-- C46: `Find` returns exactly the searched directories that have a file for every
executable, in the order of the search; it returns unless an environment variable is not set
or the status of a searched path cannot be determined.

Missing: a file for an executable is a file with the name of the executable or with that name
and any extension, and names with a dot after the first character are only found with a
further extension; see `C46_dotted_false` and `C46_extension_false`. -/
theorem C46_find_partial {h : Host} (hw : h.WF) (exes : Executables) (cfg : FindConfig)
    (r : List Str) :
    find h exes cfg = some r ↔
      ∃ paths, Searched h cfg paths ∧ (∀ p ∈ paths, h.dir p ≠ .statError) ∧
        ∃ p : Str → Bool, (∀ d ∈ paths, p d = true ↔ HasAll h exes d) ∧ r = paths.filter p := by
  rw [find]
  cases hs : searchPaths h cfg.absoluteSearchPaths cfg.envVars with
  | none =>
    simp only [reduceCtorEq, false_iff]
    rintro ⟨paths, hp, -⟩
    have := (searchPaths_iff h cfg.absoluteSearchPaths cfg.envVars paths).2 hp
    rw [hs] at this
    simp at this
  | some paths =>
    simp only [findLoop_iff hw, List.nil_append]
    constructor
    · exact fun hh => ⟨paths, (searchPaths_iff h _ _ _).1 hs, hh⟩
    · rintro ⟨paths', hp, hh⟩
      have := (searchPaths_iff h cfg.absoluteSearchPaths cfg.envVars paths').2 hp
      rw [hs] at this
      simp only [Option.some.injEq] at this
      subst this
      exact hh

/-- C46: for executables whose name has no dot, a file for the executable is the executable
itself or a file with its name and one extension. -/
theorem C46_plain_names {exe f : Str} (h0 : exe ≠ []) (hd : c!"." ∉ exe) :
    FileFor exe f ↔ f = exe ∨ ∃ x, c!"." ∉ x ∧ f = exe ++ c!"." :: x := by
  constructor
  · rintro (⟨h, -⟩ | ⟨-, h⟩)
    · exact .inl h
    · exact .inr h
  · rintro (h | h)
    · exact .inl ⟨h, fun hm => hd (List.mem_of_mem_tail hm)⟩
    · exact .inr ⟨h0, h⟩

/-- C46 is false for names with a dot: a directory that contains nothing but the five
executables is not found when one of them has a dot after its first character. -/
theorem C46_dotted_false {h : Host} (hw : h.WF) (exes : Executables) (d : Str)
    (l : List (Str × Bool)) (hd : h.dir d = .entries l)
    (hl : ∀ e ∈ l, e.1 ∈ Exes.all exes) (exe : Str) (he : exe ∈ Exes.all exes)
    (hdot : c!"." ∈ exe.tail) (hlong : ∀ e ∈ Exes.all exes, e.length ≤ exe.length) :
    find h exes ⟨[], [d]⟩ = some [] := by
  rw [C46_find_partial hw]
  refine ⟨[d], ⟨[], rfl, by simp, by simp⟩, by simp [hd], fun _ => false, ?_, rfl⟩
  simp only [List.mem_singleton, Bool.false_eq_true, false_iff]
  rintro _ rfl ⟨l', hl', hh⟩
  rw [hd] at hl'
  simp only [DirState.entries.injEq] at hl'
  subst hl'
  obtain ⟨f, hf, hff⟩ := hh exe he
  rcases hff with ⟨-, h2⟩ | ⟨-, x, -, rfl⟩
  · exact h2 hdot
  · have := hlong _ (hl _ hf)
    simp only [List.length_append, List.length_cons] at this
    omega

/-- A host with one search path and one directory. -/
def exHost (files : List (Str × Bool)) : Host where
  getenv v := if v = b!"PATH" then some b!"/none:/bin" else none
  dir d := if d = b!"/bin" then .entries files else .missing

def exGcc : Executables := ⟨b!"as", b!"gcc", b!"g++", b!"ar", b!"ld"⟩

def exFiles : List (Str × Bool) :=
  [(b!"ld", true), (b!"sh", true), (b!"as", true), (b!"gcc", true), (b!"lib", false),
   (b!"g++", true), (b!"ar", true)]

theorem exHost_wf {files : List (Str × Bool)}
    (h : ∀ e ∈ files, EntryName e.1) : (exHost files).WF := by
  intro d l hd
  simp only [exHost] at hd
  split at hd
  · simp only [DirState.entries.injEq] at hd; exact hd ▸ h
  · simp at hd

instance (f : Str) : Decidable (EntryName f) := inferInstanceAs (Decidable (_ ∧ _ ∧ _ ∧ _))

example : (exHost exFiles).WF := exHost_wf (by decide)
example : find (exHost exFiles) exGcc {} = some [b!"/bin"] := by decide
/-- Without the linker. -/
example : find (exHost exFiles.tail) exGcc {} = some [] := by decide

/-- C46 is false for file names with an extension: text files are taken for the executables. -/
theorem C46_extension_false :
    ∃ (h : Host), h.WF ∧ find h exGcc {} = some [b!"/bin"] ∧
      ∀ f r, h.dir b!"/bin" = .entries r → (f, true) ∈ r → f ∉ Exes.all exGcc :=
  ⟨exHost [(b!"as.txt", true), (b!"gcc.txt", true), (b!"g++.txt", true), (b!"ar.txt", true),
    (b!"ld.txt", true)], exHost_wf (by decide), by decide, by
    intro f r hr hf
    simp only [exHost, if_true, DirState.entries.injEq] at hr
    subst hr
    simp only [List.mem_cons, Prod.mk.injEq, and_true, List.not_mem_nil, or_false] at hf
    rcases hf with rfl | rfl | rfl | rfl | rfl <;> decide⟩

/-- A toolchain with a version in its name. -/
def exClang : Executables :=
  ⟨b!"as", b!"clang-14.0", b!"clang++", b!"llvm-ar", b!"ld"⟩

example : find (exHost [(b!"as", true), (b!"clang-14.0", true), (b!"clang++", true),
    (b!"llvm-ar", true), (b!"ld", true)]) exClang ⟨[], [b!"/bin"]⟩ = some [] :=
  C46_dotted_false (exHost_wf (by decide)) exClang b!"/bin" _ rfl (by decide) b!"clang-14.0"
    (by decide) (by decide) (by decide)

/-! ## C51 -/

/-- C51: the search over an environment variable whose value is a joined list of paths visits
exactly these paths, in order. -/
theorem C51_search {h : Host} {v : Str} {items : List Str}
    (hv : h.getenv v = some (joinWith h.delim items)) (hi : ∀ i ∈ items, h.delim ∉ i)
    (hl : items.getLast? ≠ some []) (before paths : List Str) :
    Searched h ⟨[v], before⟩ paths ↔ paths = before ++ items := by
  constructor
  · rintro ⟨ls, hlen, hh, rfl⟩
    obtain ⟨l, rfl⟩ := List.length_eq_one_iff.1 hlen
    obtain ⟨s, hs, rfl⟩ := hh 0 v l rfl rfl
    rw [hv] at hs
    simp only [Option.some.injEq] at hs
    subst hs
    rw [C51_split _ _ hi hl]
    simp
  · rintro rfl
    refine ⟨[items], rfl, ?_, by simp⟩
    intro i w l hw hl'
    cases i with
    | zero =>
      simp only [List.getElem?_cons_zero, Option.some.injEq] at hw hl'
      subst hw hl'
      exact ⟨_, hv, (C51_split _ _ hi hl).symm⟩
    | succ i => simp at hw

example (paths : List Str) :
    Searched (exHost exFiles) ⟨[b!"PATH"], [b!"/opt"]⟩ paths ↔
      paths = [b!"/opt"] ++ [b!"/none", b!"/bin"] :=
  C51_search (items := [b!"/none", b!"/bin"]) (by decide) (by decide) (by decide) _ _

/-! ## C47 -/

/-- C47: when `Verify` returns, there is a first searched directory with a file for every
executable; every executable of the toolchain is now the path inside this directory, and
the returned information is what the callback reports for these paths, with the directory. -/
theorem C47_verify {h : Host} (hw : h.WF) {exes new : Executables} {cb : Option InfoCb}
    {cfg : FindConfig} {info : CompilerInfo} (hv : verify h exes cb cfg = some (info, new)) :
    ∃ before d after f, Searched h cfg (before ++ d :: after) ∧
      (∀ b ∈ before, ¬ HasAll h exes b) ∧ HasAll h exes d ∧
      new = ⟨Path.append d (exes.assembler ++ h.exeExt), Path.append d (exes.cCompiler ++ h.exeExt),
        Path.append d (exes.cppCompiler ++ h.exeExt), Path.append d (exes.archiver ++ h.exeExt),
        Path.append d (exes.linker ++ h.exeExt)⟩ ∧
      cb = some f ∧ ∃ i, f new = some i ∧
        info.path = d ∧ info.compilerVersion = i.compilerVersion ∧
        info.targetArch = i.targetArch := by
  rw [verify] at hv
  split at hv
  · simp at hv
  · simp at hv
  · rename_i d ds hf
    split at hv
    · simp at hv
    · rename_i f
      simp only at hv
      split at hv
      · simp at hv
      · rename_i i hi
        simp only [Option.some.injEq, Prod.mk.injEq] at hv
        obtain ⟨rfl, rfl⟩ := hv
        obtain ⟨paths, hs, -, p, hp, he⟩ := (C46_find_partial hw _ _ _).1 hf
        obtain ⟨before, after, rfl, hb, hd, -⟩ := List.filter_eq_cons_iff.1 he.symm
        refine ⟨before, d, after, f, hs, ?_, (hp d (by simp)).1 hd, rfl, rfl, i, hi, rfl, rfl, rfl⟩
        intro b hbm hall
        exact hb b hbm ((hp b (by simp [hbm])).2 hall)

/-- C47: `Verify` is fatal when no searched directory has a file for every executable, when
no callback is registered, and when the callback reports nothing. -/
theorem C47_fatal {h : Host} (hw : h.WF) (exes : Executables) (cb : Option InfoCb)
    (cfg : FindConfig) :
    verify h exes cb cfg = none ↔
      (¬ ∃ paths, Searched h cfg paths ∧ ∀ p ∈ paths, h.dir p ≠ .statError) ∨
      (∃ paths, Searched h cfg paths ∧ ∀ p ∈ paths, ¬ HasAll h exes p) ∨
      cb = none ∨
      (∃ f before d after, cb = some f ∧ Searched h cfg (before ++ d :: after) ∧
        (∀ b ∈ before, ¬ HasAll h exes b) ∧ HasAll h exes d ∧
        f (createExecutables h d exes) = none) := by
  constructor
  · intro hv
    rw [verify] at hv
    split at hv
    · rename_i hf
      left
      rintro ⟨paths, hs, hp⟩
      classical
      have := (C46_find_partial hw exes cfg _).2
        ⟨paths, hs, hp, fun d => decide (HasAll h exes d), fun d _ => by simp, rfl⟩
      rw [hf] at this
      simp at this
    · rename_i hf
      obtain ⟨paths, hs, -, p, hp, he⟩ := (C46_find_partial hw _ _ _).1 hf
      refine .inr (.inl ⟨paths, hs, fun d hd hall => ?_⟩)
      have := List.filter_eq_nil_iff.1 he.symm d hd
      exact this ((hp d hd).2 hall)
    · rename_i d ds hf
      split at hv
      · exact .inr (.inr (.inl rfl))
      · rename_i f
        simp only at hv
        split at hv
        · rename_i hi
          obtain ⟨paths, hs, -, p, hp, he⟩ := (C46_find_partial hw _ _ _).1 hf
          obtain ⟨before, after, rfl, hb, hd, -⟩ := List.filter_eq_cons_iff.1 he.symm
          refine .inr (.inr (.inr ⟨f, before, d, after, rfl, hs, ?_, (hp d (by simp)).1 hd, hi⟩))
          intro b hbm hall
          exact hb b hbm ((hp b (by simp [hbm])).2 hall)
        · simp at hv
  · intro hh
    cases hv : verify h exes cb cfg with
    | none => rfl
    | some x =>
      exfalso
      obtain ⟨info, new⟩ := x
      obtain ⟨before, d, after, f, hs, hb, hd, hnew, hcb, i, hi, -⟩ := C47_verify hw hv
      have huniq : ∀ p q, Searched h cfg p → Searched h cfg q → p = q := by
        intro p q h1 h2
        have h1 := (searchPaths_iff h _ _ _).2 h1
        have h2 := (searchPaths_iff h _ _ _).2 h2
        rw [h1] at h2
        simpa using h2
      rcases hh with hh | ⟨paths, hs', hp⟩ | hh | ⟨f', before', d', after', hcb', hs', hb', hd', hf'⟩
      · apply hh
        have hf : ∃ r, find h exes cfg = some r := by
          rw [verify] at hv
          split at hv
          · simp at hv
          · exact ⟨_, by assumption⟩
          · exact ⟨_, by assumption⟩
        obtain ⟨r, hf⟩ := hf
        obtain ⟨paths, hs', hp, -⟩ := (C46_find_partial hw _ _ _).1 hf
        exact ⟨paths, hs', hp⟩
      · have := huniq _ _ hs hs'
        subst this
        exact hp d (by simp) hd
      · rw [hh] at hcb; simp at hcb
      · have he := huniq _ _ hs hs'
        rw [hcb] at hcb'
        simp only [Option.some.injEq] at hcb'
        subst hcb'
        have hdd : ∀ (a a' c c' : List Str) (x y : Str), (∀ b ∈ a, ¬ HasAll h exes b) →
            (∀ b ∈ a', ¬ HasAll h exes b) → HasAll h exes x → HasAll h exes y →
            a ++ x :: c = a' ++ y :: c' → x = y := by
          intro a
          induction a with
          | nil =>
            intro a' c c' x y _ ha' hx _ he
            cases a' with
            | nil => simp only [List.nil_append, List.cons.injEq] at he; exact he.1
            | cons z a' =>
              simp only [List.nil_append, List.cons_append, List.cons.injEq] at he
              exact absurd hx (he.1 ▸ ha' z (by simp))
          | cons w a ih =>
            intro a' c c' x y ha ha' hx hy he
            cases a' with
            | nil =>
              simp only [List.nil_append, List.cons_append, List.cons.injEq] at he
              exact absurd hy (he.1 ▸ ha w (by simp))
            | cons z a' =>
              simp only [List.cons_append, List.cons.injEq] at he
              exact ih a' c c' x y (fun b hb => ha b (by simp [hb]))
                (fun b hb => ha' b (by simp [hb])) hx hy he.2
        have := hdd _ _ _ _ _ _ hb hb' hd hd' he
        subst this
        have hn : new = createExecutables h d exes := hnew
        rw [← hn, hi] at hf'
        simp at hf'

def exCb : InfoCb := fun e => some ⟨b!"", b!"12.1", e.cppCompiler⟩

example : verify (exHost exFiles) exGcc (some exCb) {} =
    some (⟨b!"/bin", b!"12.1", b!"/bin/g++"⟩,
      ⟨b!"/bin/as", b!"/bin/gcc", b!"/bin/g++", b!"/bin/ar", b!"/bin/ld"⟩) := by decide

theorem slash_mem_append {d q : Str} (hd : d ≠ []) : Path.slash ∈ Path.append d q := by
  rw [Path.append]
  split
  · rename_i h
    cases q with
    | nil => simp [Path.isAbs] at h
    | cons b q =>
      have : b = Path.slash := by simpa [Path.isAbs] using h
      simp [this]
  · split
    · rename_i h
      rcases Path.dirPart_empty_filename d h with h' | ⟨d', h'⟩
      · exact absurd h' hd
      · rw [h']; simp
    · simp

/-- A name with a separator is never found. -/
theorem no_file_for_path {exe f : Str} (hf : EntryName f) (hs : Path.slash ∈ exe) :
    ¬ FileFor exe f := by
  rintro (⟨rfl, -⟩ | ⟨-, x, -, rfl⟩)
  · exact hf.2.2.2 hs
  · exact hf.2.2.2 (List.mem_append_left _ hs)

/-- C47, a second call: after `Verify` has succeeded, the executables are
paths, `Find` finds nothing and `Verify` is fatal, for every configuration. -/
theorem C47_again_false {h : Host} (hw : h.WF) {exes new : Executables} {cb : Option InfoCb}
    {cfg : FindConfig} {info : CompilerInfo} (hv : verify h exes cb cfg = some (info, new))
    (hd : info.path ≠ []) (cb' : Option InfoCb) (cfg' : FindConfig) :
    verify h new cb' cfg' = none := by
  rw [verify]
  split
  · rfl
  · rfl
  · rename_i d ds hf
    exfalso
    obtain ⟨paths, -, -, p, hp, he⟩ := (C46_find_partial hw _ _ _).1 hf
    obtain ⟨before, after, rfl, -, hpd, -⟩ := List.filter_eq_cons_iff.1 he.symm
    obtain ⟨l, hl, hall⟩ := (hp d (by simp)).1 hpd
    obtain ⟨before', d', after', f, -, -, -, hnew, -, i, -, hpath, -⟩ := C47_verify hw hv
    rw [hpath] at hd
    obtain ⟨g, hg, hgf⟩ := hall new.assembler (by simp)
    refine no_file_for_path (hw d l hl _ hg) ?_ hgf
    rw [hnew]
    exact slash_mem_append hd

example : verify (exHost exFiles)
    ⟨b!"/bin/as", b!"/bin/gcc", b!"/bin/g++", b!"/bin/ar", b!"/bin/ld"⟩ (some exCb) {} = none := by
  decide

/-! ## C65 -/

/-- The entries of the directories of one environment variable whose name matches. -/
def Found (h : Host) (match_ : Str → Bool) (v : Str) (m : List Str) : Prop :=
  match h.getenv v with
  | none => m = []
  | some s => m = (split s h.delim).flatMap fun p =>
      match h.dir p with
      | .entries l => (l.filter fun e => match_ e.1).map fun e => Path.append p e.1
      | _ => []

/-- The result and the matches after `n` calls of `Search`; nothing else changes the
matches. -/
def searchTimes (h : Host) (match_ : Str → Bool) (vars : List Str) : Nat → Bool × List Str
  | 0 => (false, [])
  | n + 1 => searchHostExecutable h match_ vars (searchTimes h match_ vars n).2

theorem searchEnv_found {h : Host} (hw : h.WF) (match_ : Str → Bool) (v : Str) :
    Found h match_ v (searchEnv h match_ v) := by
  rw [Found, searchEnv]
  split
  · rename_i e; rw [e]
  · rename_i s e
    rw [e]
    simp only
    have : ∀ l : List Str, (l.flatMap fun p =>
        match h.dir p with
        | .entries l => (l.map fun e => Path.append p e.1).filter fun f => match_ (Path.filename f)
        | _ => []) = l.flatMap fun p =>
        match h.dir p with
        | .entries l => (l.filter fun e => match_ e.1).map fun e => Path.append p e.1
        | _ => [] := by
      intro l
      congr 1
      funext p
      cases hd : h.dir p with
      | entries l =>
        simp only
        rw [List.filter_map]
        congr 1
        refine List.filter_congr fun e he => ?_
        simp [filename_entry (hw p l hd e he)]
      | _ => rfl
    exact this _

/-- C65: after `n` calls of `Search` the matches are `n` times the list of the entries whose
name matches, for the environment variables and their directories in order, and `Search`
returns whether there is one. -/
theorem C65_search {h : Host} (hw : h.WF) (match_ : Str → Bool) (vars : List Str) :
    ∃ ms : List (List Str), ms.length = vars.length ∧
      (∀ (i : Nat) v m, vars[i]? = some v → ms[i]? = some m → Found h match_ v m) ∧
      ∀ n, (searchTimes h match_ vars n).2 = (List.replicate n ms.flatten).flatten ∧
        ((searchTimes h match_ vars (n + 1)).1 = true ↔ ms.flatten ≠ []) := by
  have hfold : ∀ (vs acc : List Str), vs.foldl (fun acc v => acc ++ searchEnv h match_ v) acc =
      acc ++ (vs.map (searchEnv h match_)).flatten := by
    intro vs
    induction vs with
    | nil => simp
    | cons v vs ih => intro acc; simp [ih]
  refine ⟨vars.map (searchEnv h match_), by simp, ?_, fun n => ?_⟩
  · intro i v m hv hm
    rw [List.getElem?_map, hv] at hm
    simp only [Option.map_some, Option.some.injEq] at hm
    exact hm ▸ searchEnv_found hw match_ v
  · have h2 : ∀ n, (searchTimes h match_ vars n).2 =
        (List.replicate n (vars.map (searchEnv h match_)).flatten).flatten := by
      intro n
      induction n with
      | zero => rfl
      | succ n ih =>
        rw [searchTimes, searchHostExecutable]
        simp only [hfold, ih]
        rw [List.replicate_succ', List.flatten_append]
        simp
    refine ⟨h2 n, ?_⟩
    rw [show (searchTimes h match_ vars (n + 1)).1 = !(searchTimes h match_ vars (n + 1)).2.isEmpty
      from rfl, h2 (n + 1)]
    cases hm : (vars.map (searchEnv h match_)).flatten with
    | nil => simp
    | cons x xs => simp [List.replicate_succ]

/-- A second call of `Search` lists every match again. -/
example : (searchTimes (exHost exFiles) (fun f => f == b!"gcc") [b!"PATH"] 2).2 =
    [b!"/bin/gcc", b!"/bin/gcc"] := by decide

end Verif.Toolchain
