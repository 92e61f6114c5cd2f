import Verif.Path.MoreLemmas

/-!
# What a POSIX shell makes of a command

`Command::Execute` (`buildcc/lib/env/src/execute.cpp:44-67`) gives the text of the command to
tiny-process-library, which runs `/bin/sh -c` with it.  `arguments` is the part of the POSIX grammar that
build commands need: words separated by blanks, double quotes, single quotes, backslashes.  Wherever a
shell does anything else (expansions, redirections, several commands, comments, assignments, keywords)
`arguments` is `none`: the command is then more than one program with a list of arguments.
-/

namespace Verif.Shell
open Verif

/-- How the next character is read: outside of quotes, inside double or single quotes, after a
backslash. -/
inductive Quote | out | double | single | escaped
  deriving DecidableEq

/-- The characters that mean something to a shell outside of quotes. -/
def specials : Str := b!"|&;<>()$`\\\"' \t\n*?[#~!{}" ++ [13]

/-- A character that stands for itself. -/
def Ordinary (b : UInt8) : Prop := b ∉ specials

instance (b : UInt8) : Decidable (Ordinary b) := by unfold Ordinary; infer_instance

/-- The words of a command.  Second argument: the word being read, if any. -/
def read : Quote → Option Str → Str → Option (List Str)
  | .out, cur, [] => some cur.toList
  | _, _, [] => none
  | .out, cur, b :: r =>
    if b = c!" " ∨ b = c!"\t" then (read .out none r).map (cur.toList ++ ·)
    else if b = c!"\"" then read .double (some (cur.getD [])) r
    else if b = c!"'" then read .single (some (cur.getD [])) r
    else if b = c!"\\" then read .escaped cur r
    else if Ordinary b then read .out (some (cur.getD [] ++ [b])) r
    else none
  | .double, cur, b :: r =>
    if b = c!"\"" then read .out (some (cur.getD [])) r
    else if b = c!"$" ∨ b = c!"`" ∨ b = c!"\\" then none
    else read .double (some (cur.getD [] ++ [b])) r
  | .single, cur, b :: r =>
    if b = c!"'" then read .out (some (cur.getD [])) r
    else read .single (some (cur.getD [] ++ [b])) r
  | .escaped, cur, b :: r =>
    if b = c!"\n" then none else read .out (some (cur.getD [] ++ [b])) r

/-- The words of a part of a command. -/
def split (s : Str) : Option (List Str) := read .out none s

/-- The words with a meaning of their own at the beginning of a command. -/
def keywords : List Str :=
  [b!"if", b!"then", b!"else", b!"elif", b!"fi", b!"do", b!"done", b!"case", b!"esac", b!"while",
    b!"until", b!"for", b!"in"]

/-- The program and the arguments that a command stands for. -/
def arguments (s : Str) : Option (List Str) :=
  match split s with
  | some (w :: ws) => if w ∈ keywords ∨ c!"=" ∈ w then none else some (w :: ws)
  | _ => none

/-- A text that is one word as it stands. -/
def Plain (s : Str) : Prop := s ≠ [] ∧ ∀ b ∈ s, Ordinary b

instance (s : Str) : Decidable (Plain s) := by unfold Plain; infer_instance

/-! ## Lemmas -/

theorem ordinary_ne {b : UInt8} (h : Ordinary b) :
    b ≠ c!" " ∧ b ≠ c!"\t" ∧ b ≠ c!"\"" ∧ b ≠ c!"'" ∧ b ≠ c!"\\" ∧ b ≠ c!"$" ∧ b ≠ c!"`" := by
  refine ⟨?_, ?_, ?_, ?_, ?_, ?_, ?_⟩ <;> rintro rfl <;> exact absurd h (by decide)

/-- What was read is closed by a blank. -/
theorem read_space (q : Quote) (cur : Option Str) (a rest : Str) (ws : List Str)
    (h : read q cur a = some ws) :
    read q cur (a ++ c!" " :: rest) = (split rest).map (ws ++ ·) := by
  induction a generalizing q cur ws with
  | nil => cases q <;> simp_all [read, split]
  | cons b r ih =>
    rw [List.cons_append]
    cases q <;> simp only [read] at h ⊢
    · split at h
      · rename_i hb
        rw [if_pos hb]
        cases hr : read .out none r with
        | none => rw [hr] at h; cases h
        | some ws' =>
          rw [hr] at h
          simp only [Option.map_some, Option.some.injEq] at h
          rw [ih _ _ _ hr, ← h, Option.map_map]
          congr 1
          funext x
          simp
      · rename_i hb
        rw [if_neg hb]
        repeat' split at h
        all_goals first | cases h | skip
        all_goals simp_all
    · repeat' split at h
      all_goals simp_all
    · repeat' split at h
      all_goals simp_all
    · repeat' split at h
      all_goals simp_all

theorem split_append (a rest : Str) (ws : List Str) (h : split a = some ws) :
    split (a ++ c!" " :: rest) = (split rest).map (ws ++ ·) := read_space .out none a rest ws h

/-- What `split` makes of texts with blanks in between. -/
theorem split_spaced (l : List Str) (h : ∀ x ∈ l, (split x).isSome) :
    split (b!" ".intercalate l) = some (l.flatMap fun x => (split x).getD []) := by
  induction l with
  | nil => rfl
  | cons x l ih =>
    obtain ⟨ws, hw⟩ := Option.isSome_iff_exists.1 (h x (List.mem_cons_self ..))
    have ih := ih fun y hy => h y (List.mem_cons_of_mem _ hy)
    cases l with
    | nil => simp [List.intercalate, List.intersperse, hw]
    | cons y l =>
      have e : b!" ".intercalate (x :: y :: l) = x ++ c!" " :: b!" ".intercalate (y :: l) := by
        simp [List.intercalate, List.intersperse]
      rw [e, split_append _ _ _ hw, ih]
      simp [hw]

theorem read_plain (s : Str) (w : Str) (h : ∀ b ∈ s, Ordinary b) (rest : Str) :
    read .out (some w) (s ++ rest) = read .out (some (w ++ s)) rest := by
  induction s generalizing w with
  | nil => simp
  | cons b s ih =>
    have hb := h b (List.mem_cons_self ..)
    obtain ⟨h1, h2, h3, h4, h5, -⟩ := ordinary_ne hb
    rw [List.cons_append, read, if_neg (by simp [h1, h2]), if_neg h3, if_neg h4, if_neg h5, if_pos hb,
      ih _ fun c hc => h c (List.mem_cons_of_mem _ hc)]
    simp

/-- A plain text is one word. -/
theorem split_plain {s : Str} (h : Plain s) : split s = some [s] := by
  obtain ⟨hne, h⟩ := h
  cases s with
  | nil => exact absurd rfl hne
  | cons b s =>
    have hb := h b (List.mem_cons_self ..)
    obtain ⟨h1, h2, h3, h4, h5, -⟩ := ordinary_ne hb
    rw [split, read, if_neg (by simp [h1, h2]), if_neg h3, if_neg h4, if_neg h5, if_pos hb]
    have := read_plain s [b] (fun c hc => h c (List.mem_cons_of_mem _ hc)) []
    simp only [List.append_nil] at this
    simp only [Option.getD_none, List.nil_append]
    rw [this]
    rfl

theorem read_double (s : Str) (w : Str) (rest : Str)
    (h : ∀ b ∈ s, b ≠ c!"\"" ∧ b ≠ c!"$" ∧ b ≠ c!"`" ∧ b ≠ c!"\\") :
    read .double (some w) (s ++ c!"\"" :: rest) = read .out (some (w ++ s)) rest := by
  induction s generalizing w with
  | nil => simp [read]
  | cons b s ih =>
    obtain ⟨h1, h2, h3, h4⟩ := h b (List.mem_cons_self ..)
    rw [List.cons_append, read, if_neg h1, if_neg (by simp [h2, h3, h4]),
      ih _ fun c hc => h c (List.mem_cons_of_mem _ hc)]
    simp

/-- A text between double quotes is one word. -/
theorem split_quoted (pre s : Str) (hp : ∀ b ∈ pre, Ordinary b)
    (h : ∀ b ∈ s, b ≠ c!"\"" ∧ b ≠ c!"$" ∧ b ≠ c!"`" ∧ b ≠ c!"\\") (post : Str)
    (hpost : ∀ b ∈ post, Ordinary b) :
    split (pre ++ c!"\"" :: s ++ c!"\"" :: post) = some [pre ++ s ++ post] := by
  have key : ∀ w, read .out (some w) (c!"\"" :: s ++ c!"\"" :: post) = some [w ++ s ++ post] := by
    intro w
    rw [List.cons_append, read, if_neg (by decide), if_pos rfl, Option.getD_some, read_double _ _ _ h]
    have := read_plain post (w ++ s) hpost []
    simp only [List.append_nil] at this
    rw [this]
    rfl
  cases pre with
  | nil =>
    have := key []
    rw [List.nil_append, List.cons_append, split, read, if_neg (by decide), if_pos rfl]
    rw [List.cons_append, read, if_neg (by decide), if_pos rfl] at this
    exact this
  | cons b pre =>
    have hb := hp b (List.mem_cons_self ..)
    obtain ⟨h1, h2, h3, h4, h5, -⟩ := ordinary_ne hb
    rw [List.append_assoc, List.cons_append, split, read, if_neg (by simp [h1, h2]), if_neg h3, if_neg h4,
      if_neg h5, if_pos hb, Option.getD_none, List.nil_append,
      read_plain pre [b] (fun c hc => hp c (List.mem_cons_of_mem _ hc)), key]
    rfl

/-- A text of ordinary characters and blanks falls into words without blanks. -/
theorem split_blanks (s : Str) (h : ∀ b ∈ s, Ordinary b ∨ b = c!" ") :
    ∃ ws, split s = some ws ∧ ∀ w ∈ ws, c!" " ∉ w := by
  have key : ∀ (s : Str) (cur : Option Str), (∀ b ∈ s, Ordinary b ∨ b = c!" ") →
      (∀ w ∈ cur, c!" " ∉ w) → ∃ ws, read .out cur s = some ws ∧ ∀ w ∈ ws, c!" " ∉ w := by
    intro s
    induction s with
    | nil =>
      intro cur _ hc
      refine ⟨cur.toList, rfl, fun w hw => hc w ?_⟩
      simpa using hw
    | cons b s ih =>
      intro cur hs hc
      rcases hs b (List.mem_cons_self ..) with hb | rfl
      · obtain ⟨h1, h2, h3, h4, h5, -⟩ := ordinary_ne hb
        rw [read, if_neg (by simp [h1, h2]), if_neg h3, if_neg h4, if_neg h5, if_pos hb]
        refine ih _ (fun c hc => hs c (List.mem_cons_of_mem _ hc)) fun w hw => ?_
        simp only [Option.mem_def, Option.some.injEq] at hw
        subst hw
        rw [List.mem_append, List.mem_singleton]
        rintro (hx | hx)
        · cases cur with
          | none => exact absurd hx (by simp)
          | some w => exact hc w rfl hx
        · exact h1 hx.symm
      · rw [read, if_pos (.inl rfl)]
        obtain ⟨ws, hw, hws⟩ := ih none (fun c hc => hs c (List.mem_cons_of_mem _ hc)) (by simp)
        refine ⟨cur.toList ++ ws, by rw [hw]; rfl, fun w hw => ?_⟩
        rcases List.mem_append.1 hw with hw | hw
        · exact hc w (by simpa using hw)
        · exact hws w hw
  exact key s none h (by simp)

end Verif.Shell
