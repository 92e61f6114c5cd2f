import Verif.Json.Model

/-!
# The grammar of JSON

RFC 8259, written as relations between values and texts, independently of the parser of the
model.  `Text v t`: the text `t`, without white space around it, denotes the value `v`.
-/

namespace Verif.Json.Grammar
open Verif Verif.Json

/-- White space (RFC 8259, section 2). -/
def Ws (w : Str) : Prop := ∀ b ∈ w, b = c!" " ∨ b = c!"\t" ∨ b = c!"\n" ∨ b = c!"\r"

/-- A hexadecimal digit and its value. -/
def HexDigit (b : UInt8) (n : Nat) : Prop :=
  b!"0123456789abcdef"[n]? = some b ∨ b!"0123456789ABCDEF"[n]? = some b

/-- Four hexadecimal digits and their value. -/
inductive Hex4 : Str → Nat → Prop
  | mk {a b c d : UInt8} {i j k l : Nat} : HexDigit a i → HexDigit b j → HexDigit c k →
      HexDigit d l → Hex4 [a, b, c, d] (((i * 16 + j) * 16 + k) * 16 + l)

/-- The two-character escapes: the letter and the byte it stands for. -/
def escapes : List (UInt8 × UInt8) :=
  [(c!"\"", 0x22), (c!"\\", 0x5C), (c!"/", 0x2F), (c!"b", 0x08), (c!"f", 0x0C), (c!"n", 0x0A),
    (c!"r", 0x0D), (c!"t", 0x09)]

/-- The content of a string and its text between the quotes (section 7). -/
inductive Chars : Str → Str → Prop
  | nil : Chars [] []
  | char {s t : Str} (c : Char) : 0x20 ≤ c.toNat → c ≠ '"' → c ≠ '\\' → Chars s t →
      Chars (String.utf8EncodeChar c ++ s) (String.utf8EncodeChar c ++ t)
  | escape {s t : Str} {e x : UInt8} : (e, x) ∈ escapes → Chars s t →
      Chars (x :: s) (c!"\\" :: e :: t)
  | unicode {s t h : Str} (c : Char) : Hex4 h c.toNat → Chars s t →
      Chars (String.utf8EncodeChar c ++ s) (b!"\\u" ++ h ++ t)
  | pair {s t h h' : Str} {hi lo : Nat} (c : Char) : Hex4 h hi → Hex4 h' lo →
      0xD800 ≤ hi ∧ hi < 0xDC00 → 0xDC00 ≤ lo ∧ lo < 0xE000 →
      c.toNat = 0x10000 + (hi - 0xD800) * 0x400 + (lo - 0xDC00) → Chars s t →
      Chars (String.utf8EncodeChar c ++ s) (b!"\\u" ++ h ++ b!"\\u" ++ h' ++ t)

/-- A decimal digit. -/
def Digit (b : UInt8) : Prop := b ∈ b!"0123456789"

/-- Value of decimal digits. -/
def value : Str → Nat → Nat
  | [], n => n
  | b :: l, n => value l (10 * n + (b.toNat - 48))

/-- Integer part: no leading zero (section 6). -/
inductive IntPart : Str → Prop
  | zero : IntPart b!"0"
  | pos {b : UInt8} {l : Str} : Digit b → b ≠ c!"0" → (∀ x ∈ l, Digit x) → IntPart (b :: l)

/-- Optional fraction: its digits and its text. -/
inductive Frac : Str → Str → Prop
  | none : Frac [] []
  | some {l : Str} : l ≠ [] → (∀ x ∈ l, Digit x) → Frac l (c!"." :: l)

/-- Optional exponent: its value and its text. -/
inductive Exp : Int → Str → Prop
  | none : Exp 0 []
  | plain {e : UInt8} {l : Str} : e = c!"e" ∨ e = c!"E" → l ≠ [] → (∀ x ∈ l, Digit x) →
      Exp (value l 0) (e :: l)
  | plus {e : UInt8} {l : Str} : e = c!"e" ∨ e = c!"E" → l ≠ [] → (∀ x ∈ l, Digit x) →
      Exp (value l 0) (e :: c!"+" :: l)
  | minus {e : UInt8} {l : Str} : e = c!"e" ∨ e = c!"E" → l ≠ [] → (∀ x ∈ l, Digit x) →
      Exp (-(value l 0 : Int)) (e :: c!"-" :: l)

/-- `m * 10 ^ k` is in the range of a `double`: below the point halfway between the largest
finite one, `(2 ^ 53 - 1) * 2 ^ 971`, and `2 ^ 1024`. -/
def Finite (m : Nat) (k : Int) : Prop :=
  ∃ a b : Nat, k = (a : Int) - (b : Int) ∧ m * 10 ^ a < (2 ^ 54 - 1) * 2 ^ 970 * 10 ^ b

/-- Numbers: integers that fit 64 bits are kept as integers, all others that fit a `double`
as text. -/
inductive Number : JNum → Str → Prop
  | uint {i : Str} : IntPart i → value i 0 < 2 ^ 64 → Number (.uint (value i 0)) i
  | nint {i : Str} : IntPart i → value i 0 ≤ 2 ^ 63 → Number (.nint (value i 0)) (c!"-" :: i)
  | big {i : Str} : IntPart i → 2 ^ 64 ≤ value i 0 → Finite (value i 0) 0 → Number (.flt i) i
  | small {i : Str} : IntPart i → 2 ^ 63 < value i 0 → Finite (value i 0) 0 →
      Number (.flt (c!"-" :: i)) (c!"-" :: i)
  | float {sign i d f e : Str} {x : Int} : sign = [] ∨ sign = b!"-" → IntPart i → Frac d f →
      Exp x e → f ≠ [] ∨ e ≠ [] → Finite (value (i ++ d) 0) (x - (d.length : Int)) →
      Number (.flt (sign ++ i ++ f ++ e)) (sign ++ i ++ f ++ e)

/-- Keys in the order of their first member. -/
def firstKeys : List (Str × JVal) → List Str
  | [] => []
  | (k, _) :: l => k :: (firstKeys l).filter (· ≠ k)

/-- The object that a list of members denotes: a key that is repeated keeps its first place
and has its last value. -/
def Denotes (l o : List (Str × JVal)) : Prop :=
  o.map Prod.fst = firstKeys l ∧
    ∀ k v, (k, v) ∈ o → ∃ before after, l = before ++ (k, v) :: after ∧ ∀ m ∈ after, m.1 ≠ k

mutual
/-- Values (sections 3 to 7). -/
inductive Text : JVal → Str → Prop
  | null : Text .null b!"null"
  | true : Text (.bool true) b!"true"
  | false : Text (.bool false) b!"false"
  | str {s t : Str} : Chars s t → Text (.str s) (b!"\"" ++ t ++ b!"\"")
  | num {n : JNum} {t : Str} : Number n t → Text (.num n) t
  | emptyArr {w : Str} : Ws w → Text (.arr []) (b!"[" ++ w ++ b!"]")
  | arr {l : List JVal} {t : Str} : Elems l t → Text (.arr l) (b!"[" ++ t ++ b!"]")
  | emptyObj {w : Str} : Ws w → Text (.obj []) (b!"{" ++ w ++ b!"}")
  | obj {l o : List (Str × JVal)} {t : Str} : Members l t → Denotes l o →
      Text (.obj o) (b!"{" ++ t ++ b!"}")
/-- One or more elements with commas. -/
inductive Elems : List JVal → Str → Prop
  | one {v : JVal} {w t w' : Str} : Ws w → Text v t → Ws w' → Elems [v] (w ++ t ++ w')
  | cons {v : JVal} {l : List JVal} {w t w' r : Str} : Ws w → Text v t → Ws w' → Elems l r →
      Elems (v :: l) (w ++ t ++ w' ++ b!"," ++ r)
/-- One or more members with commas. -/
inductive Members : List (Str × JVal) → Str → Prop
  | one {k q w w1 w2 w3 t : Str} {v : JVal} : Ws w → Chars k q → Ws w1 → Ws w2 → Text v t →
      Ws w3 →
      Members [(k, v)] (w ++ b!"\"" ++ q ++ b!"\"" ++ w1 ++ b!":" ++ w2 ++ t ++ w3)
  | cons {k q w w1 w2 w3 t r : Str} {v : JVal} {l : List (Str × JVal)} : Ws w → Chars k q →
      Ws w1 → Ws w2 → Text v t → Ws w3 → Members l r →
      Members ((k, v) :: l)
        (w ++ b!"\"" ++ q ++ b!"\"" ++ w1 ++ b!":" ++ w2 ++ t ++ w3 ++ b!"," ++ r)
end

/-- A whole file as the library reads it: an optional byte order mark, a value with white
space around it, and then either the end of the file or a zero byte, which counts as the
end. -/
def Document (v : JVal) (file : Str) : Prop :=
  ∃ bom w t w' tail, file = bom ++ w ++ t ++ w' ++ tail ∧ (bom = [] ∨ bom = [0xEF, 0xBB, 0xBF]) ∧
    Ws w ∧ Text v t ∧ Ws w' ∧ (tail = [] ∨ ∃ x, tail = 0 :: x)

end Verif.Json.Grammar
