import Verif.Path.MoreLemmas
import Verif.Path.Spec

/-! # Path properties (C20, C21, C22, C23, C54) -/

namespace Verif.Path
open Verif

/-! ## C20: normalisation -/

/-- Normalising a stored path again changes nothing. -/
theorem normal_idempotent (s : Str) : toPathString (toPathString s) = toPathString s :=
  lexNormal_idem s

/-- A stored path has no `.` component, unless the whole path is `.`. -/
theorem normal_no_dot (s : Str) :
    toPathString s = dot ∨ dot ∉ splitSlash (toPathString s) := by
  by_cases hs : s = []
  · subst hs; right; decide
  by_cases hd : toPathString s = dot
  · left; exact hd
  right
  obtain ⟨names, k, tr, hn, _, _, _, he⟩ := split_normal s hs hd
  rw [he]
  intro hm
  simp only [List.mem_append, List.mem_replicate] at hm
  rcases hm with (hm | ⟨_, hm⟩ | hm) | hm
  · split at hm <;> simp at hm
  · exact absurd hm (by decide)
  · exact (hn _ hm).2.1 rfl
  · split at hm <;> simp at hm

/-- In a stored path `..` is never preceded by a name or by the root. -/
theorem normal_no_name_dotdot (s c : Str) (l r : List Str)
    (h : splitSlash (toPathString s) = l ++ c :: dotdot :: r) : c = dotdot := by
  by_cases hs : s = []
  · subst hs
    have : splitSlash (toPathString []) = [[]] := by decide
    rw [this] at h
    cases l with
    | nil => simp at h
    | cons x l => simp at h
  by_cases hd : toPathString s = dot
  · rw [hd] at h
    have : splitSlash dot = [dot] := by decide
    rw [this] at h
    cases l with
    | nil => simp at h
    | cons x l => simp at h
  obtain ⟨names, k, tr, hn, hk, _, hx, he⟩ := split_normal s hs hd
  clear hx
  rw [he] at h
  -- `..` only occurs in the leading block
  cases ha : isAbs s with
  | true =>
    rw [ha, hk ha] at h
    have hmem : dotdot ∈ l ++ c :: dotdot :: r := by simp
    rw [← h] at hmem
    simp only [List.mem_append, List.replicate_zero, List.nil_append] at hmem
    rcases hmem with (hm | hm) | hm
    · simp at hm
    · exact absurd rfl (hn _ hm).2.2.1
    · split at hm <;> simp at hm
  | false =>
    rw [ha] at h
    simp only [Bool.false_eq_true, if_false, List.nil_append] at h
    rw [List.append_assoc] at h
    clear he hk
    induction k generalizing l with
    | zero =>
      have hmem : dotdot ∈ l ++ c :: dotdot :: r := by simp
      rw [← h] at hmem
      simp only [List.mem_append, List.replicate_zero, List.nil_append] at hmem
      rcases hmem with hm | hm
      · exact absurd rfl (hn _ hm).2.2.1
      · split at hm <;> simp at hm
    | succ k ih =>
      rw [List.replicate_succ, List.cons_append] at h
      cases l with
      | nil => simp at h; exact h.1.symm
      | cons x l =>
        simp only [List.cons_append, List.cons.injEq] at h
        exact ih l h.2

/-- An empty component of a stored path can only be the root at its start or a
final separator. -/
theorem normal_no_empty (s : Str) (l r : List Str)
    (h : splitSlash (toPathString s) = l ++ [] :: r) : l = [] ∨ r = [] := by
  by_cases hs : s = []
  · subst hs
    have : splitSlash (toPathString []) = [[]] := by decide
    rw [this] at h
    cases l with
    | nil => left; rfl
    | cons x l => simp at h
  by_cases hd : toPathString s = dot
  · rw [hd] at h
    have : splitSlash dot = [dot] := by decide
    rw [this] at h
    cases l with
    | nil => left; rfl
    | cons x l => simp at h
  obtain ⟨names, k, tr, hn, hk, _, _, he⟩ := split_normal s hs hd
  rw [he] at h
  have hbody : ∀ c ∈ List.replicate k dotdot ++ names, c ≠ [] := by
    intro c hc
    simp only [List.mem_append, List.mem_replicate] at hc
    rcases hc with ⟨_, rfl⟩ | hc
    · decide
    · exact (hn c hc).1
  revert h hbody
  generalize List.replicate k dotdot ++ names = body
  intro h hbody
  -- after the optional root
  have key : ∀ (t : List Str) (l : List Str), (t = [] ∨ t = [[]]) →
      (∀ c ∈ body, c ≠ []) → body ++ t = l ++ [] :: r → r = [] := by
    clear h hbody he
    intro t
    induction body with
    | nil =>
      intro l ht _ h
      rcases ht with rfl | rfl
      · simp at h
      · cases l with
        | nil => simp at h; exact h
        | cons x l => simp at h
    | cons b body ih =>
      intro l ht hb h
      cases l with
      | nil => simp at h; exact absurd h.1 (hb b (by simp))
      | cons x l =>
        simp only [List.cons_append, List.cons.injEq] at h
        exact ih l ht (fun c hc => hb c (by simp [hc])) h.2
  have ht : ∀ p : Prop, [Decidable p] → ((if p then [[]] else []) = ([] : List Str) ∨
      (if p then [[]] else []) = ([[]] : List Str)) := by
    intro p _; split <;> simp
  cases ha : isAbs s with
  | true =>
    rw [ha] at h
    simp only [if_true] at h
    cases l with
    | nil => left; rfl
    | cons x l =>
      simp only [List.cons_append, List.nil_append, List.cons.injEq] at h
      right; exact key _ l (ht _) hbody h.2
  | false =>
    rw [ha] at h
    simp only [Bool.false_eq_true, if_false, List.nil_append] at h
    right; exact key _ l (ht _) hbody h

/-- Adding a `.` component anywhere does not change the stored path. -/
theorem normal_skip_dot (p q : Str) :
    toPathString (p ++ b!"/./" ++ q) = toPathString (p ++ b!"/" ++ q) := by
  have := lexNormal_spelling p dot q (by
    intro abs st _ _ _
    have : splitSlash dot = [dot] := by decide
    rw [this]
    simp only [List.foldl_cons, List.foldl_nil]
    have e : nstep abs st dot = { st with trail := true } := by simp [nstep]
    rw [e]
    exact fold_trail abs _ _ _ q)
  simpa [toPathString] using this

/-- Repeating a separator does not change the stored path. -/
theorem normal_skip_slash (p q : Str) :
    toPathString (p ++ b!"//" ++ q) = toPathString (p ++ b!"/" ++ q) := by
  have := lexNormal_spelling p [] q (by
    intro abs st _ _ _
    have : splitSlash [] = [[]] := by decide
    rw [this]
    simp only [List.foldl_cons, List.foldl_nil]
    have e : nstep abs st [] = { st with trail := true } := by simp [nstep]
    rw [e]
    exact fold_trail abs _ _ _ q)
  simpa [toPathString] using this

/-- Going through a name and back does not change the stored path. -/
theorem normal_skip_updown (p x q : Str) (hx : PlainName x) :
    toPathString (p ++ b!"/" ++ x ++ b!"/../" ++ q) = toPathString (p ++ b!"/" ++ q) := by
  have := lexNormal_spelling p (x ++ slash :: dotdot) q (by
    intro abs st _ _ _
    have hd : splitSlash dotdot = [dotdot] := by decide
    rw [splitSlash_append, splitSlash_noSlash x hx.2.2.2, hd]
    have e1 : nstep abs st x = ⟨x :: st.stack, false⟩ := by
      simp [nstep, hx.1, hx.2.1, hx.2.2.1]
    have e2 : nstep abs ⟨x :: st.stack, false⟩ dotdot = ⟨st.stack, true⟩ := by
      simp [nstep, hx.2.2.1]
    simp only [List.foldl_append, List.foldl_cons, List.foldl_nil, e1, e2]
    exact fold_trail abs _ _ _ q)
  simpa [toPathString] using this

example : toPathString b!"/p/./src//x/../a.cpp" = b!"/p/src/a.cpp" := by decide
example : toPathString b!"../../x/./y/../z/" = b!"../../x/z/" := by decide
example : PlainName b!"..x" := by decide

/-! ## C21: object files of different sources -/

/-- Two different sources inside the target root get different object files.
`root` is the normalised target root directory, `build` any build directory;
the sources are `root/r` in normal form.  Missing for the full C21: sources
outside the root, and sources whose relative path contains the text `..`
(also as part of a name): see the refutations below. -/
theorem object_path_injective_inside_root_partial (root build ext r1 r2 : Str)
    (hroot : toPathString root = root) (habs : isAbs root = true) (hfn : filename root ≠ [])
    (he : slash ∉ ext)
    (h1 : toPathString (root ++ b!"/" ++ r1) = root ++ b!"/" ++ r1)
    (h2 : toPathString (root ++ b!"/" ++ r2) = root ++ b!"/" ++ r2)
    (f1 : filename r1 ≠ []) (f2 : filename r2 ≠ [])
    (d1 : hasDotDot r1 = false) (d2 : hasDotDot r2 = false)
    (h : objectPath root build ext (root ++ b!"/" ++ r1)
      = objectPath root build ext (root ++ b!"/" ++ r2)) : r1 = r2 := by
  have k1 := lexRelative_inside root r1 hroot habs hfn h1 f1
  have k2 := lexRelative_inside root r2 hroot habs hfn h2 f2
  have a1 : isAbs r1 = false := by rw [← k1]; exact lexRelative_rel _ _
  have a2 : isAbs r2 = false := by rw [← k2]; exact lexRelative_rel _ _
  rw [objectPath_eq root build ext _ he r1 (by rw [k1, d1]; simp) a1,
    objectPath_eq root build ext _ he r2 (by rw [k2, d2]; simp) a2] at h
  have e : ∀ r, filename (root ++ b!"/" ++ r) = filename r := by
    intro r
    have := (splitFile_prefix (root ++ [slash]) r (Or.inr ⟨root, rfl⟩)).2
    simpa using this
  have g : ∀ r : Str, asDir build ++ dirPart r ++ (filename r ++ ext)
      = asDir build ++ (r ++ ext) := by
    intro r
    rw [List.append_assoc, ← List.append_assoc (dirPart r), splitFile_append]
  rw [e, e, g, g] at h
  exact List.append_cancel_right (List.append_cancel_left h)

/-- Two different sources, inside or outside an arbitrary absolute target root,
get different object files when the directories of their relative paths contain
no underscore.  The sources are absolute normalised file paths that are not
ancestors of the root and that can be reached from it
(`lexically_relative` is not empty, which always holds for a root without
`..`).  Missing for the full C21: directories with underscores. -/
theorem object_path_injective_no_underscore_partial (root build ext s1 s2 : Str)
    (habs : isAbs root = true) (he : slash ∉ ext)
    (a1 : isAbs s1 = true) (a2 : isAbs s2 = true)
    (n1 : toPathString s1 = s1) (n2 : toPathString s2 = s2)
    (f1 : filename s1 ≠ []) (f2 : filename s2 ≠ [])
    (p1 : ¬ elems s1 <+: elems root) (p2 : ¬ elems s2 <+: elems root)
    (r1 : lexRelative s1 root ≠ []) (r2 : lexRelative s2 root ≠ [])
    (u1 : c!"_" ∉ dirPart (lexRelative s1 root)) (u2 : c!"_" ∉ dirPart (lexRelative s2 root))
    (h : objectPath root build ext s1 = objectPath root build ext s2) : s1 = s2 := by
  obtain ⟨m1, me1, mn1, rfl⟩ := names_of_normal s1 a1 n1 f1
  obtain ⟨m2, me2, mn2, rfl⟩ := names_of_normal s2 a2 n2 f2
  have q1 : ∀ x, tailElems root ≠ m1 ++ x := not_prefix_elems m1 me1 mn1 root habs p1
  have q2 : ∀ x, tailElems root ≠ m2 ++ x := not_prefix_elems m2 me2 mn2 root habs p2
  have hm : m1 = m2 := by
    apply lexRelative_inj m1 m2 me1 me2 mn1 mn2 root habs q1 q2 r1 r2
    have g1 := filename_rel m1 me1 mn1 root habs q1 r1
    have g2 := filename_rel m2 me2 mn2 root habs q2 r2
    have rr : ∀ s, isAbs (if hasDotDot (lexRelative s root)
        then dotsToUnderscores (lexRelative s root) else lexRelative s root) = false := by
      intro s; split
      · exact dotsToUnderscores_rel _ (lexRelative_rel _ _)
      · exact lexRelative_rel _ _
    rw [objectPath_eq root build ext _ he _ rfl (rr _),
      objectPath_eq root build ext _ he _ rfl (rr _)] at h
    rw [List.append_assoc, List.append_assoc] at h
    have h := List.append_cancel_left h
    rw [← List.append_assoc, ← List.append_assoc] at h
    have h := List.append_cancel_right h
    have hs := congrArg splitFile h
    rw [splitFile_unique _ _ (filename_noSlash _) (dirPart_end _),
      splitFile_unique _ _ (filename_noSlash _) (dirPart_end _)] at hs
    have hd := congrArg Prod.fst hs
    have hf := congrArg Prod.snd hs
    simp only at hd hf
    rw [← splitFile_append (lexRelative (slash :: joinSlash m1) root),
      ← splitFile_append (lexRelative (slash :: joinSlash m2) root), g1, g2, hf]
    congr 1
    exact dir_replaced_inj _ _ u1 u2 hd
  rw [hm]

/-- C21 is false of the code: outside the root, `.` becomes `_`, so directories
`a.b` and `a_b` are merged. -/
theorem object_path_collision_outside_root :
    objectPath b!"/p" b!"/p/build" b!".o" b!"/a.b/x.cpp"
      = objectPath b!"/p" b!"/p/build" b!".o" b!"/a_b/x.cpp" := by decide

/-- A source of the parent directory collides with one in a directory `__`. -/
theorem object_path_collision_underscores :
    objectPath b!"/p" b!"/p/build" b!".o" b!"/x.cpp"
      = objectPath b!"/p" b!"/p/build" b!".o" b!"/p/__/x.cpp" := by decide

/-- Two sources inside the root collide when their name contains `..`. -/
theorem object_path_collision_inside_root :
    objectPath b!"/p" b!"/p/build" b!".o" b!"/p/v1.2/a..b.cpp"
      = objectPath b!"/p" b!"/p/build" b!".o" b!"/p/v1_2/a..b.cpp" := by decide

/-- With a target root that climbs above its start, all sources with one file
name share one object. -/
theorem object_path_collision_dotdot_root :
    objectPath b!"/a/../.." b!"/b" b!".o" b!"/x/y.c"
      = objectPath b!"/a/../.." b!"/b" b!".o" b!"/z/y.c" := by decide

example : toPathString b!"/p" = b!"/p" ∧ isAbs b!"/p" = true ∧ filename b!"/p" ≠ []
    ∧ toPathString b!"/p/src/a_b/main.cpp" = b!"/p/src/a_b/main.cpp"
    ∧ filename b!"src/a_b/main.cpp" ≠ [] ∧ hasDotDot b!"src/a_b/main.cpp" = false
    ∧ objectPath b!"/p" b!"/p/build" b!".o" b!"/p/src/a_b/main.cpp"
      = b!"/p/build/src/a_b/main.cpp.o" := by decide

example : ¬ elems b!"/q/x.y/main.cpp" <+: elems b!"/p/"
    ∧ lexRelative b!"/q/x.y/main.cpp" b!"/p/" = b!"../q/x.y/main.cpp"
    ∧ c!"_" ∉ dirPart (lexRelative b!"/q/x.y/main.cpp" b!"/p/")
    ∧ objectPath b!"/p/" b!"/p/build" b!".o" b!"/q/x.y/main.cpp"
      = b!"/p/build/__/q/x_y/main.cpp.o" := by decide

/-! ## C22: objects stay inside the build directory -/

/-- Every object file lies inside the target build directory, wherever the
source is. -/
theorem object_path_inside_build (root build ext source : Str) (hb : build ≠ [])
    (he : slash ∉ ext) (hn : filename source ++ ext ≠ dotdot) :
    Inside build (objectPath root build ext source) := by
  have hf : slash ∉ filename source ++ ext := by
    simp only [List.mem_append, not_or]; exact ⟨filename_noSlash _, he⟩
  have rr : isAbs (if hasDotDot (lexRelative source root)
      then dotsToUnderscores (lexRelative source root) else lexRelative source root) = false := by
    split
    · exact dotsToUnderscores_rel _ (lexRelative_rel _ _)
    · exact lexRelative_rel _ _
  have hdd : dotdot ∉ splitSlash (if hasDotDot (lexRelative source root)
      then dotsToUnderscores (lexRelative source root) else lexRelative source root) := by
    split
    · exact no_dotdot_dots _
    · rename_i h; exact no_dotdot_of_hasDotDot _ (by simpa using h)
  rw [objectPath_eq root build ext source he _ rfl rr]
  revert hdd
  generalize (if hasDotDot (lexRelative source root)
    then dotsToUnderscores (lexRelative source root) else lexRelative source root) = rel
  intro hdd
  refine ⟨dirPart rel ++ (filename source ++ ext), ?_, ?_⟩
  · rw [asDir]
    split
    · rename_i h
      right
      rcases dirPart_empty_filename build h with h | ⟨d, h⟩
      · exact absurd h hb
      · exact ⟨by rw [h]; simp, by rw [List.append_assoc]⟩
    · left; simp
  · obtain ⟨cs, h1, h2⟩ := splitSlash_dirPart rel
    have := split_dir_file (dirPart rel) (filename source ++ ext) cs h1 hf (dirPart_end rel)
    rw [this]
    rw [h2] at hdd
    simp only [List.mem_append, List.mem_singleton, not_or] at hdd ⊢
    exact ⟨hdd.1, fun e => hn e.symm⟩

example : Inside b!"/p/build" (objectPath b!"/p" b!"/p/build" b!".o" b!"/../x/../q/main.cpp") :=
  object_path_inside_build _ _ _ _ (by decide) (by decide) (by decide)

/-! ## C23: quoting of paths in commands -/

/-- A path is inserted in normal form, between double quotes exactly when it
contains a space. -/
theorem path_display_exact (s : Str) :
    (c!" " ∉ toPathString s ∧ displayString s = toPathString s) ∨
    (c!" " ∈ toPathString s ∧ displayString s = b!"\"" ++ toPathString s ++ b!"\"") := by
  rw [displayString]
  by_cases h : c!" " ∈ toPathString s
  · right; simp [h]
  · left; simp [h]

/-- In a command line whose text before the path is balanced, a path without
double quotes is read back as exactly one word, the normalised path. -/
theorem path_display_one_word (pre post s : Str) (hs : s ≠ []) (hp : Balanced pre)
    (hq : c!"\"" ∉ toPathString s) :
    words (pre ++ b!" " ++ displayString s ++ b!" " ++ post)
      = words pre ++ [toPathString s] ++ words post := by
  have hne : toPathString s ≠ [] := lexNormal_ne_nil s hs
  have h1 : wordsFrom false none (displayString s ++ b!" " ++ post)
      = [toPathString s] ++ words post := by
    rcases path_display_exact s with ⟨h, e⟩ | ⟨h, e⟩
    · rw [e, List.append_assoc, words_plain _ _ _ h hq hne]; rfl
    · rw [e]
      have := words_quoted (toPathString s) post hq
      simpa using this
  have h2 := words_pre pre (displayString s ++ b!" " ++ post) hp
  rw [words, List.append_assoc, List.append_assoc, List.append_assoc, ← List.append_assoc b!" "]
  have h3 : pre ++ (b!" " ++ displayString s ++ (b!" " ++ post))
      = pre ++ c!" " :: (displayString s ++ b!" " ++ post) := by simp
  rw [h3, h2, h1]; simp

/-- With a double quote in the path this fails: the shell reads other words. -/
theorem path_display_quote_broken :
    words (displayString b!"/a b\"/c") ≠ [toPathString b!"/a b\"/c"] := by decide

example : words b!"gcc -o \"/p/my build/a.o\" -c /p/a.c"
    = [b!"gcc", b!"-o", b!"/p/my build/a.o", b!"-c", b!"/p/a.c"] := by decide
example : Balanced b!"gcc \"-DX=1 2\" -o" := by unfold Balanced; decide

/-! ## C54: builders do not share directories, files or identifiers -/

/-- The directories of two targets with different plain (toolchain, target)
names are disjoint: no text without `..` leads from both to one file.  The build
directory, object files, state file and output of a target are all of this form. -/
theorem target_dirs_disjoint (env tc1 n1 tc2 n2 t1 t2 : Str) (henv : env ≠ [])
    (p1 : PlainName tc1) (q1 : PlainName n1) (p2 : PlainName tc2) (q2 : PlainName n2)
    (h1 : dotdot ∉ splitSlash t1) (h2 : dotdot ∉ splitSlash t2)
    (h : toPathString (targetBuildDir env tc1 n1 ++ b!"/" ++ t1)
      = toPathString (targetBuildDir env tc2 n2 ++ b!"/" ++ t2)) : tc1 = tc2 ∧ n1 = n2 := by
  have e : ∀ tc n t, PlainName tc → PlainName n →
      targetBuildDir env tc n ++ b!"/" ++ t = asDir env ++ (tc ++ slash :: (n ++ slash :: t)) := by
    intro tc n t hp hq
    rw [targetBuildDir, append_rel _ _ (isAbs_noSlash _ hp.2.2.2),
      append_rel _ _ (isAbs_noSlash _ hq.2.2.2)]
    have : filename (asDir env ++ tc) = tc :=
      filename_unique _ _ hp.2.2.2 (asDir_end env)
    rw [asDir, this, if_neg hp.1]
    simp
  rw [e _ _ _ p1 q1, e _ _ _ p2 q2] at h
  exact normal_dir_inj env tc1 n1 tc2 n2 t1 t2 henv p1 q1 p2 q2 h1 h2 h

/-- Build directory, state file and output file of targets with different plain
names are different files. -/
theorem target_files_distinct (env tc1 n1 tc2 n2 ext1 ext2 : Str) (henv : env ≠ [])
    (p1 : PlainName tc1) (q1 : PlainName n1) (p2 : PlainName tc2) (q2 : PlainName n2)
    (e1 : slash ∉ ext1) (e2 : slash ∉ ext2) (d1 : n1 ++ ext1 ≠ dotdot) (d2 : n2 ++ ext2 ≠ dotdot)
    (hne : (tc1, n1) ≠ (tc2, n2)) :
    toPathString (targetStateFile env tc1 n1) ≠ toPathString (targetStateFile env tc2 n2) ∧
    toPathString (targetOutput env tc1 n1 ext1) ≠ toPathString (targetOutput env tc2 n2 ext2) ∧
    toPathString (targetStateFile env tc1 n1) ≠ toPathString (targetOutput env tc2 n2 ext2) := by
  have key : ∀ tc n f, PlainName tc → PlainName n → slash ∉ f →
      append (targetBuildDir env tc n) f = targetBuildDir env tc n ++ b!"/" ++ f := by
    intro tc n f hp hq hf
    rw [append_rel _ _ (isAbs_noSlash _ hf)]
    have : filename (targetBuildDir env tc n) = n := by
      rw [targetBuildDir, append_rel _ n (isAbs_noSlash _ hq.2.2.2)]
      exact filename_unique _ _ hq.2.2.2 (asDir_end _)
    rw [asDir, this, if_neg hq.1]
  have dis : ∀ f g, slash ∉ f → slash ∉ g → f ≠ dotdot → g ≠ dotdot →
      toPathString (append (targetBuildDir env tc1 n1) f)
        ≠ toPathString (append (targetBuildDir env tc2 n2) g) := by
    intro f g hf hg nf ng heq
    rw [key _ _ _ p1 q1 hf, key _ _ _ p2 q2 hg] at heq
    have := target_dirs_disjoint env tc1 n1 tc2 n2 f g henv p1 q1 p2 q2
      (by rw [splitSlash_noSlash f hf]; simp; exact fun e => nf e.symm)
      (by rw [splitSlash_noSlash g hg]; simp; exact fun e => ng e.symm) heq
    exact hne (by rw [this.1, this.2])
  have hbin : ∀ n : Str, slash ∉ n → slash ∉ n ++ b!".bin" := by
    intro n hn; simp only [List.mem_append, not_or]; exact ⟨hn, by decide⟩
  have hbin2 : ∀ n : Str, n ++ b!".bin" ≠ dotdot := by
    intro n hc
    have := congrArg List.length hc
    simp at this
  have hext : ∀ n e : Str, slash ∉ n → slash ∉ e → slash ∉ n ++ e := by
    intro n e hn he; simp only [List.mem_append, not_or]; exact ⟨hn, he⟩
  exact ⟨dis _ _ (hbin _ q1.2.2.2) (hbin _ q2.2.2.2) (hbin2 _) (hbin2 _),
    dis _ _ (hext _ _ q1.2.2.2 e1) (hext _ _ q2.2.2.2 e2) d1 d2,
    dis _ _ (hbin _ q1.2.2.2) (hext _ _ q2.2.2.2 e2) (hbin2 _) d2⟩

/-- Registration identifiers of different (toolchain, target) names differ when
toolchain names contain no `]`. -/
theorem target_id_injective (tc1 n1 tc2 n2 : Str) (h1 : c!"]" ∉ tc1) (h2 : c!"]" ∉ tc2)
    (h : targetId tc1 n1 = targetId tc2 n2) : tc1 = tc2 ∧ n1 = n2 := by
  simp only [targetId, List.append_assoc, List.cons_append, List.nil_append, List.cons.injEq,
    true_and] at h
  have key : ∀ (a b x y : Str), c!"]" ∉ a → c!"]" ∉ b → a ++ c!"]" :: x = b ++ c!"]" :: y →
      a = b ∧ x = y := by
    intro a
    induction a with
    | nil =>
      intro b x y _ hb h
      cases b with
      | nil => simpa using h
      | cons c b => simp only [List.nil_append, List.cons_append, List.cons.injEq] at h
                    exact absurd (by simp [h.1]) hb
    | cons c a ih =>
      intro b x y ha hb h
      cases b with
      | nil => simp only [List.nil_append, List.cons_append, List.cons.injEq] at h
               exact absurd (by simp [← h.1]) ha
      | cons d b =>
        simp only [List.cons_append, List.cons.injEq] at h
        obtain ⟨e1, e2⟩ := ih b x y (fun hm => ha (by simp [hm])) (fun hm => hb (by simp [hm])) h.2
        exact ⟨by rw [h.1, e1], e2⟩
  obtain ⟨a, b⟩ := key _ _ _ _ h1 h2 h
  simp at b
  exact ⟨a, b⟩

/-- C54 is false for arbitrary names: a separator in a name merges directories. -/
theorem target_dirs_collision :
    targetBuildDir b!"/p" b!"gcc/x" b!"y" = targetBuildDir b!"/p" b!"gcc" b!"x/y" := by decide

/-- C54 is false for arbitrary names: `]` in a toolchain name makes identifiers
ambiguous. -/
theorem target_id_collision : targetId b!"a" b!"b] c" = targetId b!"a] b" b!"c" := by decide

/-- One target can overwrite its own state: with output extension `.bin` the
output and the state file are one file. -/
theorem target_output_is_state (env tc n : Str) :
    targetOutput env tc n b!".bin" = targetStateFile env tc n := rfl

/-- A generator and a target can collide: the state file of generator `gcc` is
the build directory of target `gcc.json` under toolchain `gcc`. -/
theorem generator_target_collision :
    genStateFile b!"/p" b!"gcc" = targetBuildDir b!"/p" b!"gcc" b!"gcc.json" := by decide

example : PlainName b!"gcc" ∧ PlainName b!"my lib" ∧ (b!"gcc", b!"my lib") ≠ (b!"clang", b!"my lib")
    := by decide

end Verif.Path
