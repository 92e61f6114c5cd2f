import Verif.Path.MoreLemmas

/-!
# What a program on Windows makes of a command

On Windows there is no shell in between: `Command::Execute` (`buildcc/lib/env/src/execute.cpp:44-67`) gives
the text of the command to `CreateProcess` (tiny-process-library), and the C runtime of the started
program splits the text into its arguments.  This file has the documented rules of the Microsoft C
runtime.  Arguments are separated by spaces and tabs outside of quotes.  Backslashes stand for
themselves, unless a quote follows: then two of them stand for one, and an odd one makes the quote a
character.  The name of the program has rules of its own, without backslashes.

Where versions of the runtime differ (a quote that follows a closing quote) and for a quote that is not
closed there is no result: `none`.
-/

namespace Verif.Windows
open Verif

/-- Where the next character is: outside of quotes, inside, or just behind a closing quote. -/
inductive Where | out | quoted | closed
  deriving DecidableEq

/-- So many backslashes. -/
def slashes (n : Nat) : Str := List.replicate n c!"\\"

/-- The argument so far, with the backslashes that were read last. -/
def flush (n : Nat) (cur : Option Str) : Option Str :=
  if n = 0 then cur else some (cur.getD [] ++ slashes n)

/-- The next character is not a quote. -/
def Where.next : Where → Where
  | .quoted => .quoted
  | _ => .out

/-- The arguments of a command.  Second argument: the number of backslashes just read; third: the
argument being read, if any, without these. -/
def read : Where → Nat → Option Str → Str → Option (List Str)
  | q, n, cur, [] => if q = .quoted then none else some (flush n cur).toList
  | q, n, cur, b :: r =>
    if b = c!"\\" then read q.next (n + 1) cur r
    else if b = c!"\"" then
      if n % 2 = 1 then read q 0 (some (cur.getD [] ++ slashes (n / 2) ++ [c!"\""])) r
      else match q with
        | .out => read .quoted 0 (some (cur.getD [] ++ slashes (n / 2))) r
        | .quoted => read .closed 0 (some (cur.getD [] ++ slashes (n / 2))) r
        | .closed => none
    else if q ≠ .quoted ∧ (b = c!" " ∨ b = c!"\t") then
      (read .out 0 none r).map ((flush n cur).toList ++ ·)
    else read q.next 0 (some (cur.getD [] ++ slashes n ++ [b])) r

/-- The arguments in a part of a command. -/
def split (s : Str) : Option (List Str) := read .out 0 none s

/-- The name of the program and the rest of the command: quotes are dropped, backslashes stand for
themselves. -/
def program : Bool → Str → Str → Option (Str × Str)
  | q, w, [] => if q then none else some (w, [])
  | q, w, b :: r =>
    if b = c!"\"" then program (!q) w r
    else if q = false ∧ (b = c!" " ∨ b = c!"\t") then some (w, r)
    else program q (w ++ [b]) r

/-- The program and the arguments that a command stands for. -/
def arguments (s : Str) : Option (List Str) :=
  match program false [] s with
  | some (w, r) => if w = [] then none else (split r).map (w :: ·)
  | none => none

/-! ## Lemmas -/

theorem read_nil (q : Where) (n : Nat) (cur : Option Str) :
    read q n cur [] = if q = .quoted then none else some (flush n cur).toList := by
  rw [read.eq_def]

theorem read_cons (q : Where) (n : Nat) (cur : Option Str) (b : UInt8) (r : Str) :
    read q n cur (b :: r) =
      if b = c!"\\" then read q.next (n + 1) cur r
      else if b = c!"\"" then
        if n % 2 = 1 then read q 0 (some (cur.getD [] ++ slashes (n / 2) ++ [c!"\""])) r
        else match q with
          | .out => read .quoted 0 (some (cur.getD [] ++ slashes (n / 2))) r
          | .quoted => read .closed 0 (some (cur.getD [] ++ slashes (n / 2))) r
          | .closed => none
      else if q ≠ .quoted ∧ (b = c!" " ∨ b = c!"\t") then
        (read .out 0 none r).map ((flush n cur).toList ++ ·)
      else read q.next 0 (some (cur.getD [] ++ slashes n ++ [b])) r := by
  rw [read.eq_def]

/-- What was read is closed by a blank. -/
theorem read_space (q : Where) (n : Nat) (cur : Option Str) (a rest : Str) (ws : List Str)
    (h : read q n cur a = some ws) :
    read q n cur (a ++ c!" " :: rest) = (split rest).map (ws ++ ·) := by
  induction a generalizing q n cur ws with
  | nil =>
    rw [read_nil] at h
    split at h
    · cases h
    · rename_i hq
      simp only [Option.some.injEq] at h
      rw [List.nil_append, read_cons, if_neg (by decide), if_neg (by decide), if_pos ⟨hq, .inl rfl⟩, h, split]
  | cons b r ih =>
    rw [List.cons_append]
    rw [read_cons] at h ⊢
    split at h
    · rename_i hb
      rw [if_pos hb]
      exact ih _ _ _ _ h
    · rename_i hb
      rw [if_neg hb]
      split at h
      · rename_i hc
        rw [if_pos hc]
        split at h
        · rename_i hn
          rw [if_pos hn]
          exact ih _ _ _ _ h
        · rename_i hn
          rw [if_neg hn]
          cases q
          · exact ih _ _ _ _ h
          · exact ih _ _ _ _ h
          · cases h
      · rename_i hc
        rw [if_neg hc]
        split at h
        · rename_i hd
          rw [if_pos hd]
          cases hr : read .out 0 none r with
          | none => rw [hr] at h; cases h
          | some ws' =>
            rw [hr] at h
            simp only [Option.map_some, Option.some.injEq] at h
            rw [ih _ _ _ _ hr, ← h, Option.map_map]
            congr 1
            funext x
            simp
        · rename_i hd
          rw [if_neg hd]
          exact ih _ _ _ _ h

theorem split_append (a rest : Str) (ws : List Str) (h : split a = some ws) :
    split (a ++ c!" " :: rest) = (split rest).map (ws ++ ·) := read_space .out 0 none a rest ws h

/-- What `split` makes of texts with blanks in between. -/
theorem split_spaced (l : List Str) (h : ∀ x ∈ l, (split x).isSome) :
    split (b!" ".intercalate l) = some (l.flatMap fun x => (split x).getD []) := by
  induction l with
  | nil => rfl
  | cons x l ih =>
    obtain ⟨ws, hw⟩ := Option.isSome_iff_exists.1 (h x (List.mem_cons_self ..))
    have ih := ih fun y hy => h y (List.mem_cons_of_mem _ hy)
    cases l with
    | nil => simp [List.intercalate, List.intersperse, hw]
    | cons y l =>
      have e : b!" ".intercalate (x :: y :: l) = x ++ c!" " :: b!" ".intercalate (y :: l) := by
        simp [List.intercalate, List.intersperse]
      rw [e, split_append _ _ _ hw, ih]
      simp [hw]

theorem slashes_succ (n : Nat) : slashes (n + 1) = slashes n ++ [c!"\\"] := by
  simp [slashes, List.replicate_succ']

/-- Characters that are not quotes, nor blanks outside of quotes, stand for themselves. -/
theorem read_literal (q : Where) (hq : q ≠ .closed) (s : Str)
    (h : ∀ b ∈ s, b ≠ c!"\"" ∧ (q = .quoted ∨ (b ≠ c!" " ∧ b ≠ c!"\t"))) (n : Nat)
    (cur : Option Str) (rest : Str) :
    ∃ n' cur', read q n cur (s ++ rest) = read q n' cur' rest ∧
      cur'.getD [] ++ slashes n' = cur.getD [] ++ slashes n ++ s ∧
      (s = [] → n' = n ∧ cur' = cur) ∧
      (s ≠ [] ∨ cur.isSome ∨ n ≠ 0 → cur'.isSome ∨ n' ≠ 0) ∧
      (∀ b, s.getLast? = some b → (b = c!"\\" ↔ n' ≠ 0)) := by
  induction s generalizing n cur with
  | nil => exact ⟨n, cur, rfl, by simp, fun _ => ⟨rfl, rfl⟩, fun h => h.elim (absurd rfl) id, by simp⟩
  | cons b s ih =>
    obtain ⟨h1, h2⟩ := h b (List.mem_cons_self ..)
    have ih := ih fun c hc => h c (List.mem_cons_of_mem _ hc)
    have hn : q.next = q := by cases q <;> first | rfl | exact absurd rfl hq
    by_cases hb : b = c!"\\"
    · obtain ⟨n', cur', e, v, k1, k2, k3⟩ := ih (n + 1) cur
      refine ⟨n', cur', ?_, ?_, by simp, fun _ => k2 (by simp), ?_⟩
      · rw [List.cons_append, read_cons, if_pos hb, hn, e]
      · rw [v, slashes_succ, hb]; simp
      · intro c hc
        cases s with
        | nil =>
          simp only [List.getLast?_singleton, Option.some.injEq] at hc
          rw [(k1 rfl).1, ← hc]; simp [hb]
        | cons d s => exact k3 c (by rw [← hc, List.getLast?_cons_cons])
    · obtain ⟨n', cur', e, v, k1, k2, k3⟩ := ih 0 (some (cur.getD [] ++ slashes n ++ [b]))
      refine ⟨n', cur', ?_, ?_, by simp, fun _ => k2 (by simp), ?_⟩
      · rw [List.cons_append, read_cons, if_neg hb, if_neg h1, if_neg, hn, e]
        rintro ⟨g1, g2⟩
        rcases h2 with h2 | h2
        · exact g1 h2
        · exact g2.elim h2.1 h2.2
      · rw [v]; simp [slashes]
      · intro c hc
        cases s with
        | nil =>
          simp only [List.getLast?_singleton, Option.some.injEq] at hc
          rw [(k1 rfl).1, ← hc]; simp [hb]
        | cons d s => exact k3 c (by rw [← hc, List.getLast?_cons_cons])

theorem flush_value {n : Nat} {cur : Option Str} (h : cur.isSome ∨ n ≠ 0) :
    (flush n cur).toList = [cur.getD [] ++ slashes n] := by
  rw [flush]
  split
  · rename_i hn
    subst hn
    cases cur with
    | none => simp at h
    | some w => simp [slashes]
  · rfl

/-- A text that is one argument as it stands. -/
def Plain (s : Str) : Prop := s ≠ [] ∧ ∀ b ∈ s, b ≠ c!"\"" ∧ b ≠ c!" " ∧ b ≠ c!"\t"

instance (s : Str) : Decidable (Plain s) := by unfold Plain; infer_instance

theorem split_plain {s : Str} (h : Plain s) : split s = some [s] := by
  obtain ⟨n, cur, e, v, -, k, -⟩ := read_literal .out (by decide) s
    (fun b hb => ⟨(h.2 b hb).1, .inr (h.2 b hb).2⟩) 0 none []
  rw [List.append_nil] at e
  rw [split, e, read_nil, if_neg (by decide), flush_value (k (.inl h.1)), v]
  simp [slashes]

/-- A text between quotes is one argument unless it ends with a backslash, with texts before and behind
that need no quotes. -/
theorem split_quoted (pre s post : Str)
    (hpre : ∀ b ∈ pre, b ≠ c!"\"" ∧ b ≠ c!" " ∧ b ≠ c!"\t" ∧ b ≠ c!"\\")
    (hs : ∀ b ∈ s, b ≠ c!"\"")
    (hpost : ∀ b ∈ post, b ≠ c!"\"" ∧ b ≠ c!" " ∧ b ≠ c!"\t") :
    split (pre ++ c!"\"" :: s ++ c!"\"" :: post) = some [pre ++ s ++ post] ↔
      s.getLast? ≠ some c!"\\" := by
  obtain ⟨n1, cur1, e1, v1, l1, -, t1⟩ := read_literal .out (by decide) pre
    (fun b hb => ⟨(hpre b hb).1, .inr ⟨(hpre b hb).2.1, (hpre b hb).2.2.1⟩⟩) 0 none
    (c!"\"" :: s ++ c!"\"" :: post)
  have hn1 : n1 = 0 := by
    rcases List.eq_nil_or_concat pre with rfl | ⟨p, b, rfl⟩
    · exact (l1 rfl).1
    · have := t1 b (by simp)
      exact Classical.byContradiction fun hc => (hpre b (by simp)).2.2.2 (this.2 hc)
  subst hn1
  have v1' : cur1.getD [] = pre := by simpa [slashes] using v1
  obtain ⟨n2, cur2, e2, v2, l2, -, t2⟩ := read_literal .quoted (by decide) s
    (fun b hb => ⟨hs b hb, .inl rfl⟩) 0 (some pre) (c!"\"" :: post)
  have v2' : cur2.getD [] ++ slashes n2 = pre ++ s := by simpa [slashes] using v2
  have start : split (pre ++ c!"\"" :: s ++ c!"\"" :: post) = read .quoted n2 cur2 (c!"\"" :: post) := by
    rw [split, List.append_assoc, e1, List.cons_append, read_cons, if_neg (by decide), if_pos rfl,
      if_neg (by decide)]
    show read .quoted 0 (some (cur1.getD [] ++ slashes 0)) _ = _
    rw [v1', ← e2]
    simp [slashes]
  rw [start, read_cons, if_neg (by decide), if_pos rfl]
  have hlast : s.getLast? = some c!"\\" ↔ n2 ≠ 0 := by
    rcases List.eq_nil_or_concat s with rfl | ⟨p, b, rfl⟩
    · simp [(l2 rfl).1]
    · have := t2 b (by simp)
      simp [this]
  rw [Ne, hlast, Decidable.not_not]
  split
  · rename_i hodd
    obtain ⟨n3, cur3, e3, -⟩ := read_literal .quoted (by decide) post
      (fun b hb => ⟨(hpost b hb).1, .inl rfl⟩) 0
      (some (cur2.getD [] ++ slashes (n2 / 2) ++ [c!"\""])) []
    rw [List.append_nil] at e3
    rw [e3, read_nil, if_pos rfl]
    constructor
    · intro h; cases h
    · intro h; subst h; simp at hodd
  · rename_i heven
    show read .closed 0 (some (cur2.getD [] ++ slashes (n2 / 2))) post = _ ↔ _
    have key : read .closed 0 (some (cur2.getD [] ++ slashes (n2 / 2))) post =
        some [cur2.getD [] ++ slashes (n2 / 2) ++ post] := by
      have out : ∀ w : Str, read .out 0 (some w) post = some [w ++ post] := by
        intro w
        obtain ⟨n3, cur3, e3, v3, -, k3, -⟩ := read_literal .out (by decide) post
          (fun b hb => ⟨(hpost b hb).1, .inr (hpost b hb).2⟩) 0 (some w) []
        rw [List.append_nil] at e3
        rw [e3, read_nil, if_neg (by decide), flush_value (k3 (.inr (.inl rfl))), v3]
        simp [slashes]
      cases post with
      | nil => rw [read_nil, if_neg (by decide)]; simp [flush]
      | cons b post =>
        rw [← out]
        have hb := hpost b (List.mem_cons_self ..)
        rw [read_cons, read_cons]
        simp only [if_neg hb.1, hb.2.1, hb.2.2, or_self, and_false, if_false, Where.next]
    rw [key]
    constructor
    · intro h
      simp only [Option.some.injEq, List.cons.injEq, and_true] at h
      have hl := congrArg List.length h
      have hv := congrArg List.length v2'
      simp [slashes] at hl hv
      omega
    · rintro rfl
      simp only [Nat.zero_div]
      rw [v2']

/-- A text without quotes falls into arguments without spaces. -/
theorem split_blanks (s : Str) (h : ∀ b ∈ s, b ≠ c!"\"") :
    ∃ ws, split s = some ws ∧ ∀ w ∈ ws, c!" " ∉ w := by
  have hsl : ∀ n, c!" " ∉ slashes n := by
    intro n hm
    exact absurd (List.eq_of_mem_replicate hm) (by decide)
  have key : ∀ (s : Str) (n : Nat) (cur : Option Str), (∀ b ∈ s, b ≠ c!"\"") →
      (c!" " ∉ cur.getD []) → ∃ ws, read .out n cur s = some ws ∧ ∀ w ∈ ws, c!" " ∉ w := by
    have hfl : ∀ (n : Nat) (cur : Option Str), c!" " ∉ cur.getD [] →
        ∀ w ∈ (flush n cur).toList, c!" " ∉ w := by
      intro n cur hc w hw
      rw [flush] at hw
      split at hw
      · cases cur with
        | none => exact absurd hw (by simp)
        | some v =>
          simp only [Option.toList_some, List.mem_singleton] at hw
          subst hw
          exact hc
      · simp only [Option.toList_some, List.mem_singleton] at hw
        subst hw
        simp only [List.mem_append, not_or]
        exact ⟨hc, hsl n⟩
    intro s
    induction s with
    | nil =>
      intro n cur _ hc
      exact ⟨_, by rw [read_nil, if_neg (by decide)], hfl n cur hc⟩
    | cons b s ih =>
      intro n cur hs hc
      have hs' := fun c hc => hs c (List.mem_cons_of_mem _ hc)
      rw [read_cons]
      split
      · exact ih _ _ hs' hc
      · rw [if_neg (hs b (List.mem_cons_self ..))]
        split
        · obtain ⟨ws, e, hw⟩ := ih 0 none hs' (by simp)
          refine ⟨_, by rw [e]; rfl, fun w hm => ?_⟩
          rcases List.mem_append.1 hm with hm | hm
          · exact hfl n cur hc w hm
          · exact hw w hm
        · rename_i hb
          refine ih _ _ hs' ?_
          simp only [Option.getD_some, List.mem_append, List.mem_singleton, not_or]
          refine ⟨⟨hc, hsl n⟩, fun e => hb ⟨by decide, .inl e.symm⟩⟩
  exact key s 0 none h (by simp)

/-- The name of a program without quotes around it. -/
theorem program_plain (s w rest : Str) (h : ∀ b ∈ s, b ≠ c!"\"" ∧ b ≠ c!" " ∧ b ≠ c!"\t") :
    program false w (s ++ c!" " :: rest) = some (w ++ s, rest) := by
  induction s generalizing w with
  | nil => simp [program]
  | cons b s ih =>
    obtain ⟨h1, h2, h3⟩ := h b (List.mem_cons_self ..)
    rw [List.cons_append, program, if_neg h1, if_neg (by simp [h2, h3]),
      ih _ fun c hc => h c (List.mem_cons_of_mem _ hc)]
    simp

/-- The name of a program with quotes around it. -/
theorem program_quoted (s w rest : Str) (h : ∀ b ∈ s, b ≠ c!"\"") :
    program true w (s ++ c!"\"" :: c!" " :: rest) = some (w ++ s, rest) := by
  induction s generalizing w with
  | nil => simp [program]
  | cons b s ih =>
    rw [List.cons_append, program, if_neg (h b (List.mem_cons_self ..)), if_neg (by simp),
      ih _ fun c hc => h c (List.mem_cons_of_mem _ hc)]
    simp

end Verif.Windows
