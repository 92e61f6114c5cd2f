import Verif.Path.Props

/-! # C21 and C54: which sources share an object, which targets share a build directory -/

namespace Verif.Path
open Verif

/-- Where a source is, seen from the root directory, as the code writes it: if the relative path has two dots
in a row then all its dots are underscores. -/
def seenFrom (root source : Str) : Str :=
  if hasDotDot (lexRelative source root)
  then (lexRelative source root).map fun b => if b = c!"." then c!"_" else b else lexRelative source root

/-- C21, exactly: two sources of a target share an object file if and only if they have the same file name and
are in the same directory as seen from the root directory, after dots have become underscores in those of the
two relative paths that have two dots in a row. -/
theorem C21_exact (root build ext s1 s2 : Str) (he : slash ∉ ext) :
    objectPath root build ext s1 = objectPath root build ext s2 ↔
      filename s1 = filename s2 ∧ dirPart (seenFrom root s1) = dirPart (seenFrom root s2) := by
  have rr : ∀ s, isAbs (seenFrom root s) = false := by
    intro s
    rw [seenFrom]
    split
    · exact dotsToUnderscores_rel _ (lexRelative_rel _ _)
    · exact lexRelative_rel _ _
  rw [objectPath_eq root build ext s1 he (seenFrom root s1) rfl (rr _),
    objectPath_eq root build ext s2 he (seenFrom root s2) rfl (rr _)]
  constructor
  · intro h
    rw [List.append_assoc, List.append_assoc] at h
    have h := List.append_cancel_left h
    rw [← List.append_assoc, ← List.append_assoc] at h
    have hs := congrArg splitFile (List.append_cancel_right h)
    rw [splitFile_unique _ _ (filename_noSlash _) (dirPart_end _),
      splitFile_unique _ _ (filename_noSlash _) (dirPart_end _)] at hs
    exact ⟨(Prod.mk.inj hs).2, (Prod.mk.inj hs).1⟩
  · rintro ⟨h1, h2⟩
    rw [h1, h2]

/-- A directory next to the root directory and one below it. -/
example : objectPath b!"/p" b!"/p/build" b!".o" b!"/a.b/x.cpp"
      = objectPath b!"/p" b!"/p/build" b!".o" b!"/p/__/a_b/x.cpp" :=
  (C21_exact _ _ _ _ _ (by decide)).2 (by decide)

/-- Underscores alone do no harm. -/
example : objectPath b!"/p" b!"/p/build" b!".o" b!"/p/a.b/x.cpp"
      ≠ objectPath b!"/p" b!"/p/build" b!".o" b!"/p/a_b/x.cpp" :=
  fun h => absurd ((C21_exact _ _ _ _ _ (by decide)).1 h) (by decide)

/-- C54, exactly: two targets have the same build directory if and only if they have the same names, or one of
the toolchain names continues the other one with a separator and directories that the other target name begins
with.  Names are not empty, do not begin with a separator, and toolchain names do not end with one. -/
theorem C54_dir_exact (env tc1 n1 tc2 n2 : Str) (h1 : isAbs tc1 = false) (h2 : isAbs tc2 = false)
    (e1 : filename tc1 ≠ []) (e2 : filename tc2 ≠ []) (r1 : isAbs n1 = false) (r2 : isAbs n2 = false) :
    targetBuildDir env tc1 n1 = targetBuildDir env tc2 n2 ↔
    (tc1 = tc2 ∧ n1 = n2) ∨ (∃ x, tc1 = tc2 ++ b!"/" ++ x ∧ n2 = x ++ b!"/" ++ n1) ∨
      ∃ x, tc2 = tc1 ++ b!"/" ++ x ∧ n1 = x ++ b!"/" ++ n2 := by
  have shape : ∀ tc n, isAbs tc = false → filename tc ≠ [] → isAbs n = false →
      targetBuildDir env tc n = asDir env ++ (tc ++ b!"/" ++ n) := by
    intro tc n ha hf hr
    rw [targetBuildDir, append_rel _ _ ha, append_rel _ _ hr]
    have : filename (asDir env ++ tc) ≠ [] := by
      rw [show filename (asDir env ++ tc) = filename tc from (splitFile_prefix _ tc (asDir_end env)).2]
      exact hf
    rw [asDir.eq_def (asDir env ++ tc), if_neg this]
    simp
  rw [shape _ _ h1 e1 r1, shape _ _ h2 e2 r2]
  have key : ∀ (a m n : Str), a ++ b!"/" ++ m = b!"/" ++ n → (a = [] ∧ m = n) ∨
      ∃ x, a = b!"/" ++ x ∧ n = x ++ b!"/" ++ m := by
    intro a m n h
    match a with
    | [] => exact .inl ⟨rfl, List.append_cancel_left h⟩
    | c :: x =>
      have h1 : c :: (x ++ b!"/" ++ m) = c!"/" :: n := h
      simp only [List.cons.injEq] at h1
      obtain ⟨rfl, h2⟩ := h1
      exact .inr ⟨x, rfl, h2.symm⟩
  constructor
  · intro h
    have h := List.append_cancel_left h
    simp only [List.append_assoc] at h
    rcases List.append_eq_append_iff.1 h with ⟨a, h1, h2⟩ | ⟨a, h1, h2⟩
    · rcases key a n2 n1 (by rw [h2, List.append_assoc]) with ⟨rfl, h3⟩ | ⟨x, rfl, h3⟩
      · exact .inl ⟨by rw [h1, List.append_nil], h3.symm⟩
      · exact .inr (.inr ⟨x, by rw [h1, List.append_assoc], h3⟩)
    · rcases key a n1 n2 (by rw [h2, List.append_assoc]) with ⟨rfl, h3⟩ | ⟨x, rfl, h3⟩
      · exact .inl ⟨by rw [h1, List.append_nil], h3⟩
      · exact .inr (.inl ⟨x, by rw [h1, List.append_assoc], h3⟩)
  · rintro (⟨rfl, rfl⟩ | ⟨x, rfl, rfl⟩ | ⟨x, rfl, rfl⟩)
    · rfl
    · simp only [List.append_assoc]
    · simp only [List.append_assoc]

example : targetBuildDir b!"/b" b!"gcc" b!"x/app" = targetBuildDir b!"/b" b!"gcc/x" b!"app" :=
  (C54_dir_exact _ _ _ _ _ (by decide) (by decide) (by decide) (by decide) (by decide) (by decide)).2
    (.inr (.inr ⟨b!"x", by decide, by decide⟩))

end Verif.Path
