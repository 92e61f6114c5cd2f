import Verif.Json.GrammarParse

/-!
# Where the strings of a JSON text are

Every string in a value has its literal in the text, between two quotes, and what precedes the literal
leaves no string open.
-/

namespace Verif.Json
open Verif Verif.Json.Grammar

/-- Outside of a string, inside one, or inside one after a backslash. -/
inductive Lex where
  | out | inn | esc
deriving DecidableEq

def Lex.step : Lex → UInt8 → Option Lex
  | .out, b => if b = c!"\"" then some .inn else some .out
  | .inn, b => if b < 32 then none else if b = c!"\"" then some .out
      else if b = c!"\\" then some .esc else some .inn
  | .esc, b => if b < 32 then none else some .inn

def Lex.run : Lex → Str → Option Lex
  | s, [] => some s
  | s, b :: l => (s.step b).bind fun s' => Lex.run s' l

theorem Lex.run_append (s : Lex) (a b : Str) :
    Lex.run s (a ++ b) = (Lex.run s a).bind fun s' => Lex.run s' b := by
  induction a generalizing s with
  | nil => rfl
  | cons x a ih =>
    rw [List.cons_append, Lex.run, Lex.run]
    cases s.step x with
    | none => rfl
    | some s' => exact ih s'

theorem Lex.run_out {a : Str} (h : ∀ b ∈ a, b ≠ c!"\"") : Lex.run .out a = some .out := by
  induction a with
  | nil => rfl
  | cons x a ih =>
    rw [Lex.run, Lex.step, if_neg (h x (by simp))]
    exact ih fun b hb => h b (by simp [hb])

/-- The text between the quotes: whether it ends after a backslash. -/
def body : Bool → Str → Option Bool
  | e, [] => some e
  | true, b :: l => if b < 32 then none else body false l
  | false, b :: l => if b < 32 ∨ b = c!"\"" then none else body (b = c!"\\") l

theorem body_append (e : Bool) (a b : Str) : body e (a ++ b) = (body e a).bind fun e' => body e' b := by
  induction a generalizing e with
  | nil => cases e <;> rfl
  | cons x a ih =>
    cases e
    · rw [List.cons_append, body, body]
      split
      · rfl
      · exact ih _
    · rw [List.cons_append, body, body]
      split
      · rfl
      · exact ih _

def Lex.of (e : Bool) : Lex := if e then .esc else .inn

theorem run_of_body {e e' : Bool} {a : Str} (h : body e a = some e') :
    Lex.run (Lex.of e) a = some (Lex.of e') := by
  induction a generalizing e with
  | nil => cases e <;> simp only [body, Option.some.injEq] at h <;> subst h <;> rfl
  | cons x a ih =>
    cases e
    · rw [body] at h
      split at h
      · simp at h
      · rename_i hx
        simp only [not_or] at hx
        rw [Lex.run, Lex.of]
        simp only [Bool.false_eq_true, if_false, Lex.step, hx.1, hx.2]
        have := ih h
        by_cases hb : x = c!"\\"
        · simp [hb, Lex.of] at this ⊢
          exact this
        · simp [hb, Lex.of] at this ⊢
          exact this
    · rw [body] at h
      split at h
      · simp at h
      · rename_i hx
        rw [Lex.run, Lex.of]
        simp only [if_true, Lex.step, if_neg hx, Option.bind_some]
        exact ih h

theorem body_ge {e e' : Bool} {a : Str} (h : body e a = some e') : ∀ b ∈ a, ¬ b < 32 := by
  induction a generalizing e with
  | nil => simp
  | cons x a ih =>
    intro b hb
    cases e
    · rw [body] at h
      split at h
      · simp at h
      · rename_i hx
        simp only [not_or] at hx
        rcases List.mem_cons.1 hb with rfl | hb
        · exact hx.1
        · exact ih h b hb
    · rw [body] at h
      split at h
      · simp at h
      · rename_i hx
        rcases List.mem_cons.1 hb with rfl | hb
        · exact hx
        · exact ih h b hb

/-- Ordinary bytes. -/
theorem body_plain {a : Str} (h : ∀ b ∈ a, ¬ b < 32 ∧ b ≠ c!"\"" ∧ b ≠ c!"\\") (r : Str) :
    body false (a ++ r) = body false r := by
  induction a with
  | nil => rfl
  | cons x a ih =>
    obtain ⟨h1, h2, h3⟩ := h x (by simp)
    rw [List.cons_append, body, if_neg (by simp [h1, h2]), decide_eq_false h3]
    exact ih fun b hb => h b (by simp [hb])

theorem encode_bytes {c : Char} {b : UInt8} (h : b ∈ String.utf8EncodeChar c) :
    b.toNat = c.toNat ∨ 0x80 ≤ b.toNat := by
  have hr := char_range c
  rw [encodeCp_char] at h
  generalize c.toNat = v at h hr ⊢
  unfold encodeCp at h
  have tn : ∀ n : Nat, n < 256 → (UInt8.ofNat n).toNat = n := fun n h =>
    UInt8.toNat_ofNat_of_lt' h
  split at h
  · simp only [List.mem_cons, List.not_mem_nil, or_false] at h
    subst h
    exact .inl (tn _ (by omega))
  right
  split at h
  · simp only [List.mem_cons, List.not_mem_nil, or_false] at h
    rcases h with rfl | rfl <;> rw [tn _ (by omega)] <;> omega
  split at h
  · simp only [List.mem_cons, List.not_mem_nil, or_false] at h
    rcases h with rfl | rfl | rfl <;> rw [tn _ (by omega)] <;> omega
  · simp only [List.mem_cons, List.not_mem_nil, or_false] at h
    rcases h with rfl | rfl | rfl | rfl <;> rw [tn _ (by omega)] <;> omega

theorem encode_ordinary {c : Char} (h0 : 0x20 ≤ c.toNat) (h1 : c ≠ '"') (h2 : c ≠ '\\') :
    ∀ b ∈ String.utf8EncodeChar c, ¬ b < 32 ∧ b ≠ c!"\"" ∧ b ≠ c!"\\" := by
  intro b hb
  have h3 : c.toNat ≠ 34 := char_ne.1 h1
  have h4 : c.toNat ≠ 92 := char_ne.1 h2
  have := encode_bytes hb
  refine ⟨?_, ?_, ?_⟩
  · rw [UInt8.lt_iff_toNat_lt]
    simp only [UInt8.reduceToNat]
    omega
  · rintro rfl
    simp at this
    omega
  · rintro rfl
    simp at this
    omega

theorem hex_ordinary {h : Str} {n : Nat} (hh : Hex4 h n) :
    ∀ b ∈ h, ¬ b < 32 ∧ b ≠ c!"\"" ∧ b ≠ c!"\\" := by
  have key : ∀ (b : UInt8) (n : Nat), HexDigit b n → ¬ b < 32 ∧ b ≠ c!"\"" ∧ b ≠ c!"\\" := by
    intro b n h
    have all : ∀ x ∈ b!"0123456789abcdef" ++ b!"0123456789ABCDEF",
        ¬ x < 32 ∧ x ≠ c!"\"" ∧ x ≠ c!"\\" := by decide +kernel
    apply all
    rcases h with h | h
    · exact List.mem_append_left _ (List.mem_of_getElem? h)
    · exact List.mem_append_right _ (List.mem_of_getElem? h)
  cases hh with
  | mk h1 h2 h3 h4 =>
    intro b hb
    simp only [List.mem_cons, List.not_mem_nil, or_false] at hb
    rcases hb with rfl | rfl | rfl | rfl
    · exact key _ _ h1
    · exact key _ _ h2
    · exact key _ _ h3
    · exact key _ _ h4

theorem chars_body {s t : Str} (h : Chars s t) : body false t = some false := by
  have u : ∀ r : Str, body false (b!"\\u" ++ r) = body false r := by
    intro r
    have e : b!"\\u" ++ r = c!"\\" :: c!"u" :: r := rfl
    rw [e, body, if_neg (by decide)]
    simp only [decide_true]
    rw [body, if_neg (by decide)]
  induction h with
  | nil => rfl
  | char c h0 h1 h2 _ ih => rw [body_plain (encode_ordinary h0 h1 h2), ih]
  | @escape s t e x he _ ih =>
    rw [body, if_neg (by decide)]
    simp only [decide_true]
    rw [body, if_neg ?_, ih]
    have all : ∀ p ∈ escapes, ¬ p.1 < 32 := by decide +kernel
    exact all _ he
  | unicode c hh _ ih => rw [List.append_assoc, u, body_plain (hex_ordinary hh), ih]
  | pair c hh hh' _ _ _ _ ih =>
    simp only [List.append_assoc]
    rw [u, body_plain (hex_ordinary hh), u, body_plain (hex_ordinary hh'), ih]

/-- A text without backslash stands for itself; every other text is longer than what it stands for. -/
theorem chars_size {s t : Str} (h : Chars s t) :
    (s = t ∧ (∃ cs : List Char, s = cs.flatMap String.utf8EncodeChar) ∧
      ∀ b ∈ s, b ≠ c!"\"" ∧ b ≠ c!"\\" ∧ ¬ b < 32) ∨ (c!"\\" ∈ t ∧ s.length < t.length) := by
  have le4 : ∀ c : Char, (String.utf8EncodeChar c).length ≤ 4 := by
    intro c
    rw [encodeCp_char]
    unfold encodeCp
    repeat' split
    all_goals simp
  have l4 : ∀ {h : Str} {n : Nat}, Hex4 h n → h.length = 4 := by
    intro h n hh
    obtain ⟨a, b, c, d, rfl⟩ := hh.shape
    rfl
  have grow : ∀ {s t : Str}, ((s = t ∧ (∃ cs : List Char, s = cs.flatMap String.utf8EncodeChar) ∧
      ∀ b ∈ s, b ≠ c!"\"" ∧ b ≠ c!"\\" ∧ ¬ b < 32) ∨ (c!"\\" ∈ t ∧ s.length < t.length)) →
      s.length ≤ t.length := by
    rintro s t (⟨rfl, -⟩ | ⟨-, h⟩)
    · exact Nat.le_refl _
    · omega
  induction h with
  | nil => exact .inl ⟨rfl, ⟨[], rfl⟩, by simp⟩
  | char c h0 h1 h2 _ ih =>
    rcases ih with ⟨rfl, ⟨cs, hcs⟩, hb⟩ | ⟨hm, hl⟩
    · refine .inl ⟨rfl, ⟨c :: cs, by rw [List.flatMap_cons, hcs]⟩, ?_⟩
      intro b hb'
      rcases List.mem_append.1 hb' with hb' | hb'
      · obtain ⟨h3, h4, h5⟩ := encode_ordinary h0 h1 h2 b hb'
        exact ⟨h4, h5, h3⟩
      · exact hb b hb'
    · refine .inr ⟨List.mem_append_right _ hm, ?_⟩
      simp only [List.length_append]
      omega
  | escape _ _ ih =>
    have := grow ih
    exact .inr ⟨by simp, by simp only [List.length_cons]; omega⟩
  | unicode c hh _ ih =>
    have := grow ih
    have := le4 c
    have := l4 hh
    exact .inr ⟨by simp, by simp only [List.length_append, List.length_cons, List.length_nil]; omega⟩
  | pair c hh hh' _ _ _ _ ih =>
    have := grow ih
    have := le4 c
    have := l4 hh
    have := l4 hh'
    exact .inr ⟨by simp, by simp only [List.length_append, List.length_cons, List.length_nil]; omega⟩

/-- `q` stands between quotes in the text, and no string is open before it. -/
def LitIn (q t : Str) : Prop :=
  ∃ a b, t = a ++ c!"\"" :: (q ++ c!"\"" :: b) ∧ Lex.run .out a = some .out ∧ body false q = some false

theorem LitIn.right {q a : Str} (h : Lex.run .out a = some .out) {t : Str} (hl : LitIn q t) (r : Str) :
    LitIn q (a ++ (t ++ r)) := by
  obtain ⟨x, b, rfl, hx, hq⟩ := hl
  exact ⟨a ++ x, b ++ r, by simp, by rw [Lex.run_append, h]; exact hx, hq⟩

theorem run_lit {q : Str} (h : body false q = some false) :
    Lex.run .out (c!"\"" :: (q ++ [c!"\""])) = some .out := by
  rw [Lex.run]
  simp only [Lex.step, if_true, Option.bind_some]
  rw [Lex.run_append, show (Lex.inn) = Lex.of false from rfl, run_of_body h]
  rfl

/-- A string somewhere in a value (not as a key). -/
inductive Has (s : Str) : JVal → Prop
  | str : Has s (.str s)
  | arr {v : JVal} {l : List JVal} : v ∈ l → Has s v → Has s (.arr l)
  | obj {k : Str} {v : JVal} {o : List (Str × JVal)} : (k, v) ∈ o → Has s v → Has s (.obj o)

theorem ws_out {w : Str} (h : Ws w) : Lex.run .out w = some .out :=
  Lex.run_out fun b hb => by rcases h b hb with rfl | rfl | rfl | rfl <;> decide

theorem number_out {n : JNum} {t : Str} (h : Number n t) : Lex.run .out t = some .out := by
  apply Lex.run_out
  have dig : ∀ b : UInt8, Digit b → b ≠ c!"\"" := by
    intro b hb
    rintro rfl
    revert hb
    unfold Digit
    decide
  have int : ∀ {i : Str}, IntPart i → ∀ b ∈ i, b ≠ c!"\"" := by
    intro i hi
    cases hi with
    | zero => decide
    | pos h0 _ h1 =>
      intro b hb
      rcases List.mem_cons.1 hb with rfl | hb
      · exact dig _ h0
      · exact dig _ (h1 b hb)
  have frac : ∀ {d f : Str}, Frac d f → ∀ b ∈ f, b ≠ c!"\"" := by
    intro d f hf
    cases hf with
    | none => simp
    | some _ h =>
      intro b hb
      rcases List.mem_cons.1 hb with rfl | hb
      · decide
      · exact dig _ (h b hb)
  have exp : ∀ {x : Int} {e : Str}, Exp x e → ∀ b ∈ e, b ≠ c!"\"" := by
    intro x e he
    cases he with
    | none => simp
    | plain h0 _ h =>
      intro b hb
      rcases List.mem_cons.1 hb with rfl | hb
      · rcases h0 with rfl | rfl <;> decide
      · exact dig _ (h b hb)
    | plus h0 _ h =>
      intro b hb
      rcases List.mem_cons.1 hb with rfl | hb
      · rcases h0 with rfl | rfl <;> decide
      · rcases List.mem_cons.1 hb with rfl | hb
        · decide
        · exact dig _ (h b hb)
    | minus h0 _ h =>
      intro b hb
      rcases List.mem_cons.1 hb with rfl | hb
      · rcases h0 with rfl | rfl <;> decide
      · rcases List.mem_cons.1 hb with rfl | hb
        · decide
        · exact dig _ (h b hb)
  have neg : ∀ {i : Str}, IntPart i → ∀ b ∈ c!"-" :: i, b ≠ c!"\"" := by
    intro i hi b hb
    rcases List.mem_cons.1 hb with rfl | hb
    · decide
    · exact int hi b hb
  cases h with
  | uint hi _ => exact int hi
  | nint hi _ => exact neg hi
  | big hi _ _ => exact int hi
  | small hi _ _ => exact neg hi
  | float hs hi hf he _ _ =>
    intro b hb
    simp only [List.mem_append] at hb
    rcases hb with ((hb | hb) | hb) | hb
    · rcases hs with rfl | rfl
      · simp at hb
      · revert b; decide
    · exact int hi b hb
    · exact frac hf b hb
    · exact exp he b hb

theorem run_two {a b : Str} (ha : Lex.run .out a = some .out) (hb : Lex.run .out b = some .out) :
    Lex.run .out (a ++ b) = some .out := by rw [Lex.run_append, ha]; exact hb

theorem run_key {q : Str} {k : Str} (h : Chars k q) {w w1 w2 : Str} (hw : Ws w) (h1 : Ws w1)
    (h2 : Ws w2) : Lex.run .out (w ++ b!"\"" ++ q ++ b!"\"" ++ w1 ++ b!":" ++ w2) = some .out := by
  have e : w ++ b!"\"" ++ q ++ b!"\"" ++ w1 ++ b!":" ++ w2 =
      w ++ ((c!"\"" :: (q ++ [c!"\""])) ++ (w1 ++ (b!":" ++ w2))) := by simp
  rw [e]
  exact run_two (ws_out hw) (run_two (run_lit (chars_body h))
    (run_two (ws_out h1) (run_two (by decide) (ws_out h2))))

mutual
theorem text_out {v : JVal} {t : Str} (h : Text v t) : Lex.run .out t = some .out := by
  match h with
  | .null => decide
  | .true => decide
  | .false => decide
  | .str (t := q) hc =>
    have e : b!"\"" ++ q ++ b!"\"" = c!"\"" :: (q ++ [c!"\""]) := by simp
    rw [e]
    exact run_lit (chars_body hc)
  | .num hn => exact number_out hn
  | .emptyArr hw => exact run_two (run_two (by decide) (ws_out hw)) (by decide)
  | .arr he => exact run_two (run_two (by decide) (elems_out he)) (by decide)
  | .emptyObj hw => exact run_two (run_two (by decide) (ws_out hw)) (by decide)
  | .obj hm _ => exact run_two (run_two (by decide) (members_out hm)) (by decide)
theorem elems_out {l : List JVal} {t : Str} (h : Elems l t) : Lex.run .out t = some .out := by
  match h with
  | .one hw ht hw' => exact run_two (run_two (ws_out hw) (text_out ht)) (ws_out hw')
  | .cons hw ht hw' hr =>
    exact run_two (run_two (run_two (run_two (ws_out hw) (text_out ht)) (ws_out hw')) (by decide))
      (elems_out hr)
theorem members_out {l : List (Str × JVal)} {t : Str} (h : Members l t) :
    Lex.run .out t = some .out := by
  match h with
  | .one hw hk h1 h2 ht h3 => exact run_two (run_two (run_key hk hw h1 h2) (text_out ht)) (ws_out h3)
  | .cons hw hk h1 h2 ht h3 hr =>
    exact run_two (run_two (run_two (run_two (run_key hk hw h1 h2) (text_out ht)) (ws_out h3))
      (by decide)) (members_out hr)
end

mutual
/-- Every string of a value has its literal in the text. -/
theorem text_lit {v : JVal} {t : Str} (h : Text v t) {s : Str} (hs : Has s v) :
    ∃ q, Chars s q ∧ LitIn q t := by
  match h with
  | .null => cases hs
  | .true => cases hs
  | .false => cases hs
  | .str (t := q) hc =>
    cases hs
    exact ⟨q, hc, [], [], by simp, rfl, chars_body hc⟩
  | .num _ => cases hs
  | .emptyArr _ =>
    cases hs with
    | arr hm _ => cases hm
  | .arr (t := t) he =>
    cases hs with
    | arr hm hv =>
      obtain ⟨q, hq, hl⟩ := elems_lit he hm hv
      exact ⟨q, hq, by simpa using hl.right (a := b!"[") (by decide) b!"]"⟩
  | .emptyObj _ =>
    cases hs with
    | obj hm _ => cases hm
  | .obj (l := l) (t := t) hm hd =>
    cases hs with
    | @obj k v _ hmem hv =>
      have hmem' : (k, v) ∈ l := by
        obtain ⟨x, y, e, -⟩ := hd.2 _ _ hmem
        rw [e]
        simp
      obtain ⟨q, hq, hl⟩ := members_lit hm hmem' hv
      exact ⟨q, hq, by simpa using hl.right (a := b!"{") (by decide) b!"}"⟩
theorem elems_lit {l : List JVal} {t : Str} (h : Elems l t) {v : JVal} (hm : v ∈ l) {s : Str}
    (hs : Has s v) : ∃ q, Chars s q ∧ LitIn q t := by
  match h with
  | .one hw ht hw' =>
    have ih := fun h => text_lit ht (s := s) h
    have : v = _ := List.mem_singleton.1 hm
    subst this
    obtain ⟨q, hq, hl⟩ := ih hs
    exact ⟨q, hq, by simpa using hl.right (ws_out hw) _⟩
  | .cons (t := t) (w' := w') (r := r) hw ht hw' hr =>
    have ih := fun h => text_lit ht (s := s) h
    rcases List.mem_cons.1 hm with he | hm
    · obtain ⟨q, hq, hl⟩ := ih (he ▸ hs)
      exact ⟨q, hq, by simpa using hl.right (ws_out hw) (w' ++ b!"," ++ r)⟩
    · obtain ⟨q, hq, hl⟩ := elems_lit hr hm hs
      have := hl.right (run_two (run_two (run_two (ws_out hw) (text_out ht)) (ws_out hw'))
        (by decide : Lex.run .out b!"," = some .out)) []
      exact ⟨q, hq, by simpa using this⟩
theorem members_lit {l : List (Str × JVal)} {t : Str} (h : Members l t) {k : Str} {v : JVal}
    (hm : (k, v) ∈ l) {s : Str} (hs : Has s v) : ∃ q, Chars s q ∧ LitIn q t := by
  match h with
  | .one (w3 := w3) hw hk h1 h2 ht h3 =>
    have ih := fun h => text_lit ht (s := s) h
    have := List.mem_singleton.1 hm
    simp only [Prod.mk.injEq] at this
    obtain ⟨q, hq, hl⟩ := ih (this.2 ▸ hs)
    exact ⟨q, hq, by simpa using hl.right (run_key hk hw h1 h2) w3⟩
  | .cons (w3 := w3) (r := r) hw hk h1 h2 ht h3 hr =>
    have ih := fun h => text_lit ht (s := s) h
    rcases List.mem_cons.1 hm with he | hm
    · simp only [Prod.mk.injEq] at he
      obtain ⟨q, hq, hl⟩ := ih (he.2 ▸ hs)
      exact ⟨q, hq, by simpa using hl.right (run_key hk hw h1 h2) (w3 ++ b!"," ++ r)⟩
    · obtain ⟨q, hq, hl⟩ := members_lit hr hm hs
      have := hl.right (run_two (run_two (run_two (run_key hk hw h1 h2)
        (text_out ht)) (ws_out h3)) (by decide : Lex.run .out b!"," = some .out)) []
      exact ⟨q, hq, by simpa using this⟩
end

/-- The same for a whole file. -/
theorem document_lit {v : JVal} {t : Str} (h : Document v t) {s : Str} (hs : Has s v) :
    ∃ q, Chars s q ∧ LitIn q t := by
  obtain ⟨bom, w, x, w', tail, rfl, hb, hw, ht, -, -⟩ := h
  obtain ⟨q, hq, hl⟩ := text_lit ht hs
  refine ⟨q, hq, ?_⟩
  have hbom : Lex.run .out bom = some .out := by
    rcases hb with rfl | rfl <;> decide
  simpa using hl.right (run_two hbom (ws_out hw)) (w' ++ tail)

/-! ## Parts of a text -/

/-- A text in two lines: the literal is in one of them. -/
theorem LitIn.line {q x y : Str} (h : LitIn q (x ++ c!"\n" :: y)) : LitIn q x ∨ LitIn q y := by
  obtain ⟨a, b, e, ha, hq⟩ := h
  have hge := body_ge hq
  rcases List.append_eq_append_iff.1 e with ⟨z, hz, he⟩ | ⟨z, hz, he⟩
  · -- `a = x ++ z`
    cases z with
    | nil =>
      simp only [List.nil_append, List.cons.injEq] at he
      exact absurd he.1 (by decide)
    | cons c z =>
      simp only [List.cons_append, List.cons.injEq] at he
      obtain ⟨rfl, rfl⟩ := he
      right
      refine ⟨z, b, rfl, ?_, hq⟩
      rw [hz, Lex.run_append] at ha
      cases hr : Lex.run .out x with
      | none => rw [hr] at ha; simp at ha
      | some st =>
        rw [hr] at ha
        cases st <;> simp [Lex.run, Lex.step] at ha
        exact ha
  · -- `x = a ++ z`
    cases z with
    | nil =>
      simp only [List.nil_append, List.cons.injEq] at he
      exact absurd he.1 (by decide)
    | cons c z =>
      simp only [List.cons_append, List.cons.injEq] at he
      obtain ⟨rfl, he⟩ := he
      rcases List.append_eq_append_iff.1 he with ⟨u, hu, he'⟩ | ⟨u, hu, he'⟩
      · cases u with
        | nil =>
          simp only [List.nil_append, List.cons.injEq] at he'
          exact absurd he'.1 (by decide)
        | cons c u =>
          simp only [List.cons_append, List.cons.injEq] at he'
          obtain ⟨rfl, rfl⟩ := he'
          exact .inl ⟨a, u, by rw [hz, hu], ha, hq⟩
      · cases u with
        | nil =>
          simp only [List.nil_append, List.cons.injEq] at he'
          exact absurd he'.1 (by decide)
        | cons c u =>
          simp only [List.cons_append, List.cons.injEq] at he'
          obtain ⟨rfl, -⟩ := he'
          exact absurd (by decide) (hge c!"\n" (by rw [hu]; simp))

/-- A text after a part that leaves no string open. -/
theorem LitIn.part {q x y : Str} (hx : Lex.run .out x = some .out) (h : LitIn q (x ++ y)) :
    LitIn q x ∨ LitIn q y := by
  obtain ⟨a, b, e, ha, hq⟩ := h
  rcases List.append_eq_append_iff.1 e with ⟨z, hz, he⟩ | ⟨z, hz, he⟩
  · right
    refine ⟨z, b, he, ?_, hq⟩
    rw [hz, Lex.run_append, hx] at ha
    exact ha
  · cases z with
    | nil => exact .inr ⟨[], b, he.symm, rfl, hq⟩
    | cons c z =>
      simp only [List.cons_append, List.cons.injEq] at he
      obtain ⟨rfl, he⟩ := he
      rcases List.append_eq_append_iff.1 he with ⟨u, hu, he'⟩ | ⟨u, hu, he'⟩
      · cases u with
        | nil =>
          exfalso
          rw [hz, hu, Lex.run_append, ha] at hx
          simp only [List.append_nil, Option.bind_some, Lex.run, Lex.step, if_true] at hx
          rw [show Lex.inn = Lex.of false from rfl, run_of_body hq] at hx
          simp [Lex.of] at hx
        | cons c u =>
          simp only [List.cons_append, List.cons.injEq] at he'
          obtain ⟨rfl, rfl⟩ := he'
          exact .inl ⟨a, u, by rw [hz, hu], ha, hq⟩
      · exfalso
        rw [hu, body_append] at hq
        cases hb : body false z with
        | none => rw [hb] at hq; simp at hq
        | some e' =>
          rw [hz, Lex.run_append, ha] at hx
          simp only [Option.bind_some, Lex.run, Lex.step, if_true] at hx
          rw [show Lex.inn = Lex.of false from rfl, run_of_body hb] at hx
          cases e' <;> simp [Lex.of] at hx

theorem LitIn.mem {q t : Str} (h : LitIn q t) : ∀ b ∈ q, b ∈ t := by
  obtain ⟨a, b, rfl, -, -⟩ := h
  intro c hc
  simp [hc]

end Verif.Json
