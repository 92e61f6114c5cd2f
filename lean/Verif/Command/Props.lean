import Verif.Command.Lemmas

/-! # Command properties (C24, C25, C26) -/

namespace Verif.Command
open Verif

/-- The value a name has in `Construct`: the default argument if there is one,
otherwise the first call argument of that name. -/
def bound (d : Defaults) (args : Args) (n : Str) : Option Str :=
  (getDefault d n).or (lookupArg args n)

/-! ## C24 -/

/-- `Construct` of a pattern made of text, escaped braces and fields is the
concatenation of the segment values; values are inserted as they are, never
scanned again.  It is fatal exactly when a field has no value. -/
theorem construct_meaning (d : Defaults) (args : Args) (l : List Seg) (hl : ∀ x ∈ l, x.Ok) :
    construct d (srcs l) args =
      match vals (bound d args) l with
      | some s => .value s
      | none => .fatal := by
  have hb : ∀ n, lookupArg (d ++ args) n = bound d args n := fun n => lookupArg_append d args n
  have := format_segs (d ++ args) l hl [] ((srcs l).length + 1) (by simp)
  rw [List.append_nil, vals_congr _ _ l hb] at this
  rw [construct]
  rcases this with ⟨h1, h2⟩ | ⟨g, v, hg, h1, h2⟩
  · rw [h1, h2]
  · rw [h1, h2]
    cases g with
    | zero => simp at hg
    | succ g => simp [format, Out.pre]

/-- `Construct` returns a string only for such patterns, and only that string. -/
theorem construct_value_iff (d : Defaults) (args : Args) (p s : Str) :
    construct d p args = .value s ↔
      ∃ l, (∀ x ∈ l, Seg.Ok x) ∧ srcs l = p ∧ vals (bound d args) l = some s := by
  constructor
  · intro h
    obtain ⟨l, h1, h2, h3⟩ := format_value _ _ _ _ h
    exact ⟨l, h1, h2, by
      rw [← h3]; exact vals_congr _ _ l (fun n => (lookupArg_append d args n).symm)⟩
  · rintro ⟨l, h1, rfl, h3⟩
    rw [construct_meaning d args l h1, h3]

/-- A value containing braces is not expanded again. -/
theorem construct_no_rescan (d : Defaults) (args : Args) (n v : Str) (hn : IsIdent n)
    (hv : bound d args n = some v) : construct d (b!"{" ++ n ++ b!"}") args = .value v := by
  have := construct_meaning d args [.field n] (by simpa [Seg.Ok] using hn)
  simpa [srcs, Seg.src, vals, Seg.val, hv] using this

/-- Text without braces is returned unchanged. -/
theorem construct_text (d : Defaults) (args : Args) (s : Str) (h1 : c!"{" ∉ s) (h2 : c!"}" ∉ s) :
    construct d s args = .value s := by
  have := construct_meaning d args [.text s] (by simpa [Seg.Ok] using ⟨h1, h2⟩)
  simpa [srcs, Seg.src, vals, Seg.val] using this

/-- The order in which the hash map of defaults is iterated does not matter. -/
theorem construct_perm (d1 d2 : Defaults) (hp : d1.Perm d2) (hd : (d1.map Prod.fst).Nodup)
    (p : Str) (args : Args) (s : Str) :
    construct d1 p args = .value s ↔ construct d2 p args = .value s := by
  rw [construct_value_iff, construct_value_iff]
  have : ∀ n, bound d1 args n = bound d2 args n := by
    intro n; rw [bound, bound, getDefault, getDefault, lookupArg_perm d1 d2 hp hd]
  have e : bound d1 args = bound d2 args := funext this
  rw [e]

example : (∀ x ∈ [Seg.field b!"compiler", .text b!" -DX=", .openBrace, .field b!"v_1",
      .closeBrace], x.Ok) ∧
    srcs [.field b!"compiler", .text b!" -DX=", .openBrace, .field b!"v_1", .closeBrace]
      = b!"{compiler} -DX={{{v_1}}}" ∧
    construct [(b!"compiler", b!"gcc")] b!"{compiler} -DX={{{v_1}}}" [(b!"v_1", b!"{x}")]
      = .value b!"gcc -DX={{x}}" := by decide +kernel

/-! ## C25 -/

/-- A field whose name has neither a default nor a call argument makes `Construct`
fatal, wherever it stands. -/
theorem construct_missing_fatal (d : Defaults) (args : Args) (l m : List Seg) (n : Str)
    (hl : ∀ x ∈ l ++ .field n :: m, x.Ok) (hn : bound d args n = none) :
    construct d (srcs (l ++ .field n :: m)) args = .fatal := by
  rw [construct_meaning d args _ hl]
  have : vals (bound d args) (l ++ .field n :: m) = none := by
    clear hl
    induction l with
    | nil => simp [vals, Seg.val, hn]
    | cons x l ih => simp [vals, ih]
  rw [this]

/-- An unmatched closing brace makes `Construct` fatal. -/
theorem construct_lone_close_fatal (d : Defaults) (args : Args) (l : List Seg)
    (hl : ∀ x ∈ l, x.Ok) (t : Str) (ht : t.head? ≠ some c!"}") :
    construct d (srcs l ++ b!"}" ++ t) args = .fatal := by
  rw [construct, List.append_assoc]
  rcases format_segs (d ++ args) l hl (b!"}" ++ t) _ (Nat.lt_succ_self _) with ⟨_, h⟩ | ⟨g, v, hg, _, h⟩
  · exact h
  · rw [h]
    cases g with
    | zero => simp at hg
    | succ g =>
      cases t with
      | nil => simp [format, Out.pre]
      | cons b t =>
        simp at ht
        simp [format, ht, Out.pre]

/-- A `{` that opens neither `{{` nor a field makes `Construct` fatal. -/
theorem construct_lone_open_fatal (d : Defaults) (args : Args) (l : List Seg)
    (hl : ∀ x ∈ l, x.Ok) (n : Str) (hn : n = [] ∨ IsIdent n) (t : Str)
    (ht : ∀ b, t.head? = some b → b ∉ letters ∧ b ∉ numerals ∧ b ∉ b!"{}:") :
    construct d (srcs l ++ b!"{" ++ n ++ t) args = .fatal := by
  rw [construct, List.append_assoc, List.append_assoc]
  rcases format_segs (d ++ args) l hl (b!"{" ++ (n ++ t)) _ (Nat.lt_succ_self _) with
    ⟨_, h⟩ | ⟨g, v, hg, _, h⟩
  · exact h
  · rw [h]
    suffices hs : format (d ++ args) g (b!"{" ++ (n ++ t)) = .fatal by rw [hs]; rfl
    cases g with
    | zero => simp at hg
    | succ g =>
      cases n with
      | nil =>
        cases t with
        | nil => simp [format]
        | cons b t =>
          obtain ⟨h1, h2, h3⟩ := ht b rfl
          have h1' : nameStart b = false := by
            cases hb : nameStart b
            · rfl
            · exact absurd ((nameStart_iff b).1 hb) h1
          have h2' : ¬ (c!"0" ≤ b ∧ b ≤ c!"9") := by
            exact fun hb => h2 (numeral_mem b hb)
          simp at h3
          simp [format, h1', h3, h2']
      | cons a n =>
        rcases hn with hn | hn
        · cases hn
        · have hb := (nameStart_iff a).2 hn.1
          have hnn : ∀ x ∈ n, nameByte x = true := fun x h => (nameByte_iff x).2 (hn.2 x h)
          obtain ⟨s1, s2, s3, s4⟩ := nameStart_special a hb
          have htw : (n ++ t).dropWhile nameByte = t := by
            rw [List.dropWhile_append_of_pos hnn]
            cases t with
            | nil => rfl
            | cons b t =>
              obtain ⟨h1, h2, h3⟩ := ht b rfl
              have : nameByte b = false := by
                cases hb : nameByte b
                · rfl
                · rcases (nameByte_iff b).1 hb with h | h
                  · exact absurd h h1
                  · exact absurd h h2
              simp [this]
          have e : b!"{" ++ (a :: n ++ t) = c!"{" :: a :: (n ++ t) := by simp
          rw [e, format.eq_def]
          simp only
          rw [if_neg (by decide), if_pos trivial, if_neg s1,
            if_neg (by simp only [s2, s3, s4, or_self, not_false_eq_true]), if_pos hb, htw]
          cases t with
          | nil => rfl
          | cons b t =>
            obtain ⟨_, _, h3⟩ := ht b rfl
            simp at h3
            simp [h3]

example : construct [] b!"a {x" [(b!"x", b!"1")] = .fatal ∧ construct [] b!"}" [] = .fatal
    ∧ construct [(b!"y", b!"2")] b!"{y} {z}" [(b!"x", b!"1")] = .fatal := by decide

/-! ## C26 -/

/-- C26 is false of the code: a default argument hides the call argument. -/
theorem construct_default_shadows_argument :
    construct [(b!"input", b!"default")] b!"{input}" [(b!"input", b!"call")]
      = .value b!"default" := by decide

/-- In general the default always wins. -/
theorem construct_default_wins (d : Defaults) (args : Args) (n v : Str) (hn : IsIdent n)
    (hd : getDefault d n = some v) : construct d (b!"{" ++ n ++ b!"}") args = .value v :=
  construct_no_rescan d args n v hn (by simp [bound, hd])

/-- The call argument is used when no default of that name exists.  Missing for the
full C26: names that also have a default, where it is false. -/
theorem construct_argument_used_partial (d : Defaults) (args : Args) (n v : Str) (hn : IsIdent n)
    (hd : getDefault d n = none) (ha : lookupArg args n = some v) :
    construct d (b!"{" ++ n ++ b!"}") args = .value v :=
  construct_no_rescan d args n v hn (by simp [bound, hd, ha])

/-- C26, exactly: a supplied argument is used if and only if no default of that name has another value. -/
theorem C26_exact (d : Defaults) (args : Args) (n v : Str) (hn : IsIdent n) (ha : lookupArg args n = some v) :
    construct d (b!"{" ++ n ++ b!"}") args = .value v ↔ ∀ w, getDefault d n = some w → w = v := by
  cases hd : getDefault d n with
  | none => exact ⟨fun _ _ h => (by cases h), fun _ => construct_argument_used_partial d args n v hn hd ha⟩
  | some w =>
    rw [construct_default_wins d args n w hn hd]
    simp

/-- Both cases occur. -/
example : construct [(b!"y", b!"2")] b!"{x}" [(b!"x", b!"1")] = .value b!"1" ∧
    construct [(b!"x", b!"2")] b!"{x}" [(b!"x", b!"1")] ≠ .value b!"1" := by decide

/-- Registering a default again does not change its value: the first one is kept. -/
theorem default_first_wins (d : Defaults) (k v w : Str) (h : getDefault d k = some v) :
    getDefault (addDefault d k w) k = some v := by
  rw [getDefault_addDefault, h]

/-- Registering a default makes it available when the name is new. -/
theorem default_added (d : Defaults) (k v : Str) (h : getDefault d k = none) :
    getDefault (addDefault d k v) k = some v := by
  rw [getDefault_addDefault, h]; simp

/-- Registering a default leaves all other names alone. -/
theorem default_frame (d : Defaults) (k v n : Str) (h : k ≠ n) :
    getDefault (addDefault d k v) n = getDefault d n := by
  rw [getDefault_addDefault]; simp only [h, if_false]; cases getDefault d n <;> rfl

example : IsIdent b!"input" ∧ getDefault [(b!"a", b!"1")] b!"input" = none
    ∧ lookupArg [(b!"input", b!"x")] b!"input" = some b!"x" := by decide

end Verif.Command
