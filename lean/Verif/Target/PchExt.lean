import Verif.Target.SpecialProps

/-! # For which extensions objects use the compiled header of their target (C71) -/

namespace Verif.Target
open Verif Verif.Schema Verif.Toolchain

/-! ## Proofs -/

theorem dot_split (s : Str) : (c!"." ∉ s) ∨ ∃ x y, s = x ++ c!"." :: y ∧ c!"." ∉ y := by
  induction s with
  | nil => exact .inl (by simp)
  | cons b r ih =>
    rcases ih with h | ⟨x, y, rfl, hy⟩
    · by_cases hb : b = c!"."
      · exact .inr ⟨[], r, by rw [hb]; rfl, h⟩
      · exact .inl (by simp only [List.mem_cons, not_or]; exact ⟨Ne.symm hb, h⟩)
    · exact .inr ⟨b :: x, y, rfl, hy⟩

/-- Removing the extension of a path whose file name is long and has its last dot at a given place. -/
theorem remove_ext {d s y : Str} (hd : d = [] ∨ ∃ d', d = d' ++ [Path.slash])
    (hf : Path.slash ∉ s ++ c!"." :: y) (hy : c!"." ∉ y) (h2 : 2 ≤ s.length) :
    Path.replaceExtension (d ++ (s ++ c!"." :: y)) [] = d ++ s := by
  unfold Path.replaceExtension
  rw [Path.dirPart_unique _ _ hf hd, Path.stem, Path.filename_unique _ _ hf hd]
  have hl : Path.lastDot (s ++ c!"." :: y) = some (s, c!"." :: y) :=
    Toolchain.lastDot_some.2 (by simp [hy])
  unfold Path.stemExt
  rw [hl]
  have h1 : s ++ c!"." :: y ≠ Path.dot := by
    intro h
    have := congrArg List.length h
    simp [Path.dot] at this
    omega
  have h3 : s ++ c!"." :: y ≠ Path.dotdot := by
    intro h
    have := congrArg List.length h
    simp [Path.dotdot] at this
    omega
  cases s with
  | nil => simp at h2
  | cons b r => simp only [h1, h3, or_self, if_false, List.append_nil]

theorem no_slash {w y : Str} (hw : Path.slash ∉ w) (hy : Path.slash ∉ y) : Path.slash ∉ w ++ c!"." :: y := by
  simp only [List.mem_append, List.mem_cons, not_or]
  exact ⟨hw, by decide, hy⟩

theorem pch_included {build eh ec : Str} (hh : PlainExt eh) (hs : Path.slash ∉ ec) :
    Path.pchCompilePath build eh ec = Path.pchHeaderPath build eh ++ ec ∧
    (Path.replaceExtension (Path.pchCompilePath build eh ec) [] = Path.pchHeaderPath build eh ↔
      ∃ n, ec = c!"." :: n ∧ c!"." ∉ n) := by
  obtain ⟨d, hd, hdd⟩ := pch_split build eh hh
  have h1 : Path.pchCompilePath build eh ec = Path.pchHeaderPath build eh ++ ec := by
    have h := stem_file d b!"buildcc_pch" eh (by decide) hh hdd (by decide)
    rw [Path.pchCompilePath, hd]
    unfold Path.replaceExtension
    rw [h]
    obtain ⟨n, rfl, -⟩ := hh
    simp
  refine ⟨h1, ?_⟩
  rw [h1, hd]
  obtain ⟨n0, rfl, hn0, hd0, hs0⟩ := hh
  have hlen : (b!"buildcc_pch").length = 11 := rfl
  have hsl : Path.slash ∉ b!"buildcc_pch" := by decide
  rcases dot_split ec with hno | ⟨x, y, rfl, hy⟩
  · have hr := remove_ext (d := d) (s := b!"buildcc_pch") (y := n0 ++ ec) hdd
      (no_slash hsl (by simp only [List.mem_append, not_or]; exact ⟨hs0, hs⟩))
      (by simp only [List.mem_append, not_or]; exact ⟨hd0, hno⟩) (by omega)
    have e : d ++ (b!"buildcc_pch" ++ c!"." :: n0) ++ ec = d ++ (b!"buildcc_pch" ++ c!"." :: (n0 ++ ec)) := by
      simp
    rw [e, hr]
    constructor
    · intro h
      have := congrArg List.length h
      simp at this
    · rintro ⟨n, rfl, -⟩
      exact absurd (List.mem_cons_self ..) hno
  · simp only [List.mem_append, List.mem_cons, not_or] at hs
    have hr := remove_ext (d := d) (s := b!"buildcc_pch" ++ c!"." :: n0 ++ x) (y := y) hdd
      (no_slash (fun h => (List.mem_append.1 h).elim (no_slash hsl hs0) hs.1) hs.2.2)
      hy (by simp only [List.length_append, hlen]; omega)
    have e : d ++ (b!"buildcc_pch" ++ c!"." :: n0) ++ (x ++ c!"." :: y) =
        d ++ (b!"buildcc_pch" ++ c!"." :: n0 ++ x ++ c!"." :: y) := by simp
    rw [e, hr]
    constructor
    · intro h
      have hx : x = [] := by
        have := congrArg List.length h
        simp only [List.length_append, List.length_cons] at this
        exact List.eq_nil_of_length_eq_zero (by omega)
      exact ⟨y, by rw [hx]; rfl, hy⟩
    · rintro ⟨n, h, hn⟩
      cases x with
      | nil => simp
      | cons b x =>
        simp only [List.cons_append, List.cons.injEq] at h
        exact absurd (h.2 ▸ List.mem_append_right _ (List.mem_cons_self ..)) hn

/-! ## Theorem -/

/-- **C71, exactly** (GCC and MinGW).  `included` is the file that every object of a target with precompiled
headers includes first, and `header` the one that is compiled to `header` with the extension added.  They are
the same file if and only if the extension of compiled headers is a dot and a text without dots. -/
theorem C71_exact {junk : Nat → TargetSchema} {p : Project} {name : Str} {type : TargetType}
    {tc : Toolchain} {env : TargetEnv} {m : Made}
    (h : targetGeneric junk p name type tc env = some m) (hid : tc.id ≠ .msvc)
    (hh : PlainExt tc.config.pchHeaderExt) (hc : Path.slash ∉ tc.config.pchCompileExt)
    {e : ApiEnv} {ops : List ApiOp} {u : TargetSchema} (hu : applyAll e m.info ops = some u)
    (hcopy : ∀ op ∈ ops, ¬ Copies .pchObjectFlags op) (hp : u.pchs ≠ []) :
    ∃ header included : Str,
      (∀ src comp flags, SourceKind m.fixed u src comp flags → ∃ pre post,
        compileCommand m.fixed u src =
          .value (pre ++ b!" -include " ++ Path.displayString included ++ b!" -H" ++ post)) ∧
      (∃ pre, pchCommand m.fixed u =
        .value (pre ++ b!" -o " ++ Path.displayString (header ++ tc.config.pchCompileExt) ++
          b!" -c " ++ Path.displayString header)) ∧
      (included = header ↔ ∃ n, tc.config.pchCompileExt = c!"." :: n ∧ c!"." ∉ n) := by
  obtain ⟨h1, h2, h3, h4, h5, h6, h7, -⟩ := C70_made h
  have hpaths := pch_included (build := m.buildDir) hh hc
  have hflags := h7 .pchObject
  simp only [extraFlags, hid, if_false, Made.pchCompilePath, h3] at hflags
  obtain ⟨later, hlater⟩ := pchObjectFlags_after hflags hu hcopy
  refine ⟨Path.pchHeaderPath m.buildDir tc.config.pchHeaderExt,
    Path.replaceExtension (Path.pchCompilePath m.buildDir tc.config.pchHeaderExt tc.config.pchCompileExt) [],
    fun src comp flags hk => ?_, ?_, hpaths.2⟩
  · have ht : m.fixed.tcfg.compileCommand = gccCompileTemplate := by
      simp [Made.fixed, h6, shipped, hid]
    rw [gcc_compile_command _ _ _ _ _ ht hk]
    simp only [ifPch, hp, ne_eq, not_false_eq_true, if_true, hlater]
    obtain ⟨pre, post, hs⟩ := spaced_inside
      [Path.displayString comp, spaced u.preprocessorFlags,
        spaced (u.includeDirs.map (m.fixed.cfg.prefixIncludeDir ++ ·)), spaced u.commonCompileFlags]
      (flagsOf tc.user .pchObject)
      [b!"-include " ++ Path.displayString (Path.replaceExtension
        (Path.pchCompilePath m.buildDir tc.config.pchHeaderExt tc.config.pchCompileExt) []), b!"-H"] later
      [spaced flags, b!"-o", Path.displayString (objPath m.fixed src), b!"-c", src]
      (by simp) (by simp) (by simp)
    refine ⟨pre, post, ?_⟩
    simp only [List.cons_append, List.nil_append] at hs ⊢
    rw [hs]
    simp [spaced, List.intercalate_cons_cons, List.append_assoc]
  · have ht : m.fixed.tcfg.pchCommand = gccPchTemplate := by
      simp [Made.fixed, h6, shipped, hid]
    obtain ⟨comp, flags, hk⟩ := pchKind_exists m.fixed u
    rw [gcc_pch_command _ _ _ _ ht hp hk]
    have hb : m.fixed.buildDir = m.buildDir := rfl
    have hcf : m.fixed.cfg = tc.config := by rw [← h3]; rfl
    rw [hb, hcf, hpaths.1]
    refine ⟨spaced [Path.displayString comp, spaced u.preprocessorFlags,
        spaced (u.includeDirs.map (tc.config.prefixIncludeDir ++ ·)), spaced u.commonCompileFlags,
        spaced u.pchCompileFlags, spaced flags], ?_⟩
    simp [spaced, List.intercalate_cons_cons, List.append_assoc]

/-- Instance: with the extension that GCC uses the two are the same file, with two dots they are not. -/
example : (∃ n, b!".gch" = c!"." :: n ∧ c!"." ∉ n) ∧ ¬ (∃ n, b!".h.gch" = c!"." :: n ∧ c!"." ∉ n) ∧
    Path.replaceExtension (Path.pchCompilePath b!"/b" b!".h" b!".gch") [] = b!"/b/buildcc_pch.h" ∧
    Path.replaceExtension (Path.pchCompilePath b!"/b" b!".h" b!".h.gch") [] = b!"/b/buildcc_pch.h.h" ∧
    Path.replaceExtension (Path.pchCompilePath b!"/b" b!".h" b!"gch") [] = b!"/b/buildcc_pch" := by
  refine ⟨⟨b!"gch", rfl, by decide⟩, ?_, by decide +kernel, by decide +kernel, by decide +kernel⟩
  rintro ⟨n, h, hn⟩
  obtain ⟨-, h2⟩ := List.cons.inj h
  exact absurd (h2 ▸ (by decide : c!"." ∈ b!"h.gch")) hn

/-- Instance: a target of a GCC toolchain whose compiled headers have an extension with two dots. -/
example : ∃ m u, targetGeneric (fun _ => TargetSchema.empty) exProject b!"lib" .dynamicLibrary
      { exGcc with config := { exGcc.config with pchCompileExt := b!".h.gch" } } ⟨b!"/r/lib", b!"/b"⟩ = some m ∧
    applyAll exEnv m.info [.addPch b!"p.hpp" b!"", .addSource b!"a.cpp" b!""] = some u ∧ u.pchs ≠ [] ∧
    compileCommand m.fixed u b!"/r/a.cpp" =
      .value b!"g++   -fpic -Winvalid-pch -include /b/gcc/lib/buildcc_pch.h.h -H  -o /b/gcc/lib/__/a.cpp.o -c /r/a.cpp" ∧
    pchCommand m.fixed u =
      .value b!"g++   -fpic   -o /b/gcc/lib/buildcc_pch.h.h.gch -c /b/gcc/lib/buildcc_pch.h" := by
  refine ⟨_, _, (((C70_same _ _ _ _ _ gccDynamic).2.2.1 _).trans
    (((C70_same _ _ _ _ _ gccDynamic).2.2.2.1 rfl).2.2.2.2.2)), rfl, ?_, ?_, ?_⟩ <;> decide +kernel

end Verif.Target
