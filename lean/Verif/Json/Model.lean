import Verif.Str.Basic

/-!
# Model of the JSON layer (`nlohmann::ordered_json`)

The library stores its state with `json::dump(4)` and reads it back with
`json::parse(data, nullptr, false)`
(`buildcc/schema/src/target_serialization.cpp:53-73`,
`buildcc/schema/src/custom_generator_serialization.cpp`).  nlohmann/json itself is
not part of /repo (`third_party/json` is empty), so this file models its
documented behaviour at byte level: the serializer (`serializer::dump`,
`dump_escaped`), the lexer (`scan_string`, `scan_number`, `scan_literal`,
`skip_bom`, `skip_whitespace`) and the strict parser (`parser::parse`,
`sax_parse_internal`).

Simplifications: floating point numbers are kept as their lexeme (buildcc never
stores one); the parser is recursive where nlohmann keeps an explicit stack.
-/

namespace Verif.Json
open Verif

/-- JSON numbers as nlohmann classifies them: `number_unsigned`,
`number_integer` (negative) or `number_float` (kept as text). -/
inductive JNum where
  | uint (n : Nat)
  | nint (n : Nat)      -- the integer `-n`
  | flt (lexeme : Str)
deriving DecidableEq, Repr

/-- `nlohmann::ordered_json` values.  Objects keep insertion order. -/
inductive JVal where
  | null
  | bool (b : Bool)
  | num (n : JNum)
  | str (s : Str)
  | arr (l : List JVal)
  | obj (l : List (Str × JVal))
deriving Repr

/-! ## UTF-8 -/

/-- A byte in the inclusive range `[lo, hi]`. -/
def inRange (lo hi b : UInt8) : Bool := lo ≤ b && b ≤ hi

/-- A UTF-8 continuation byte. -/
def isCont (b : UInt8) : Bool := inRange 0x80 0xBF b

/-- Well-formed UTF-8 (no overlong forms, no surrogates, at most U+10FFFF).
nlohmann's `dump_escaped` decodes with a DFA that accepts exactly these strings
and throws `type_error.316` on the others; `scan_string` uses the same table. -/
def validUtf8 : Str → Bool
  | [] => true
  | b :: r =>
    if b < 0x80 then validUtf8 r
    else if inRange 0xC2 0xDF b then
      match r with
      | c1 :: r => isCont c1 && validUtf8 r
      | _ => false
    else if b = 0xE0 then
      match r with
      | c1 :: c2 :: r => inRange 0xA0 0xBF c1 && isCont c2 && validUtf8 r
      | _ => false
    else if inRange 0xE1 0xEC b || inRange 0xEE 0xEF b then
      match r with
      | c1 :: c2 :: r => isCont c1 && isCont c2 && validUtf8 r
      | _ => false
    else if b = 0xED then
      match r with
      | c1 :: c2 :: r => inRange 0x80 0x9F c1 && isCont c2 && validUtf8 r
      | _ => false
    else if b = 0xF0 then
      match r with
      | c1 :: c2 :: c3 :: r =>
        inRange 0x90 0xBF c1 && isCont c2 && isCont c3 && validUtf8 r
      | _ => false
    else if inRange 0xF1 0xF3 b then
      match r with
      | c1 :: c2 :: c3 :: r => isCont c1 && isCont c2 && isCont c3 && validUtf8 r
      | _ => false
    else if b = 0xF4 then
      match r with
      | c1 :: c2 :: c3 :: r =>
        inRange 0x80 0x8F c1 && isCont c2 && isCont c3 && validUtf8 r
      | _ => false
    else false

/-- All strings (keys included) of a value are well-formed UTF-8.  `dump` throws
exactly when this fails. -/
def JVal.valid : JVal → Bool
  | .null | .bool _ | .num _ => true
  | .str s => validUtf8 s
  | .arr l => validList l
  | .obj l => validMembers l
where
  validList : List JVal → Bool
    | [] => true
    | v :: l => v.valid && validList l
  validMembers : List (Str × JVal) → Bool
    | [] => true
    | (k, v) :: l => validUtf8 k && v.valid && validMembers l

/-! ## Serializer -/

/-- Lower-case hexadecimal digit (`{:04x}` style output of `dump_escaped`). -/
def hexDigit (n : Nat) : UInt8 :=
  if n < 10 then UInt8.ofNat (48 + n) else UInt8.ofNat (87 + n)

/-- `serializer::dump_escaped` with `ensure_ascii = false`, per byte: bytes of
multi-byte sequences and printable ASCII are copied. -/
def escByte (b : UInt8) : Str :=
  if b = 0x08 then b!"\\b"
  else if b = 0x09 then b!"\\t"
  else if b = 0x0A then b!"\\n"
  else if b = 0x0C then b!"\\f"
  else if b = 0x0D then b!"\\r"
  else if b = 0x22 then b!"\\\""
  else if b = 0x5C then b!"\\\\"
  else if b < 0x20 then
    b!"\\u00" ++ [hexDigit (b.toNat / 16), hexDigit (b.toNat % 16)]
  else [b]

/-- A JSON string literal with its quotes. -/
def dumpStr (s : Str) : Str := c!"\"" :: (s.flatMap escByte ++ [c!"\""])

/-- Decimal digits of a natural number, most significant first; `fuel` is an
upper bound of the number of digits. -/
def digitsAux : Nat → Nat → Str
  | 0, _ => []
  | fuel + 1, n =>
    if n < 10 then [UInt8.ofNat (48 + n)]
    else digitsAux fuel (n / 10) ++ [UInt8.ofNat (48 + n % 10)]

/-- `std::to_string` of an unsigned integer. -/
def digits (n : Nat) : Str := digitsAux (n + 1) n

/-- `serializer::dump_integer`. -/
def dumpNum : JNum → Str
  | .uint n => digits n
  | .nint n => c!"-" :: digits n
  | .flt s => s

/-- `n` spaces of indentation. -/
def spaces (n : Nat) : Str := List.replicate n c!" "

/-- `serializer::dump(val, pretty_print = true, ensure_ascii = false,
indent_step = 4, current_indent = ind)`. -/
def dumpV (ind : Nat) : JVal → Str
  | .null => b!"null"
  | .bool true => b!"true"
  | .bool false => b!"false"
  | .num n => dumpNum n
  | .str s => dumpStr s
  | .arr [] => b!"[]"
  | .arr (v :: l) =>
    b!"[\n" ++ (spaces (ind + 4) ++ dumpV (ind + 4) v) ++ dumpRest (ind + 4) l
      ++ b!"\n" ++ spaces ind ++ b!"]"
  | .obj [] => b!"{}"
  | .obj ((k, v) :: l) =>
    b!"{\n" ++ (spaces (ind + 4) ++ dumpStr k ++ b!": " ++ dumpV (ind + 4) v)
      ++ dumpRestM (ind + 4) l ++ b!"\n" ++ spaces ind ++ b!"}"
where
  /-- Elements after the first: each preceded by `",\n"`. -/
  dumpRest (ind : Nat) : List JVal → Str
    | [] => []
    | v :: l => b!",\n" ++ (spaces ind ++ dumpV ind v) ++ dumpRest ind l
  /-- Members after the first: each preceded by `",\n"`. -/
  dumpRestM (ind : Nat) : List (Str × JVal) → Str
    | [] => []
    | (k, v) :: l =>
      b!",\n" ++ (spaces ind ++ dumpStr k ++ b!": " ++ dumpV ind v) ++ dumpRestM ind l

/-- `json::dump(4)`: `none` when nlohmann throws `type_error.316`. -/
def dump (v : JVal) : Option Str := if v.valid then some (dumpV 0 v) else none

/-! ## Lexer -/

/-- `lexer::skip_whitespace`. -/
def isWs (b : UInt8) : Bool := b = 0x20 || b = 0x09 || b = 0x0A || b = 0x0D

def skipWs : Str → Str
  | [] => []
  | b :: r => if isWs b then skipWs r else b :: r

/-- Value of a hexadecimal digit (`lexer::get_codepoint`). -/
def hexVal (b : UInt8) : Option Nat :=
  if inRange 0x30 0x39 b then some (b.toNat - 48)
  else if inRange 0x41 0x46 b then some (b.toNat - 55)
  else if inRange 0x61 0x66 b then some (b.toNat - 87)
  else none

def hex4 (a b c d : UInt8) : Option Nat := do
  let a ← hexVal a
  let b ← hexVal b
  let c ← hexVal c
  let d ← hexVal d
  pure (a * 4096 + b * 256 + c * 16 + d)

/-- UTF-8 encoding of a code point (tail of the `\u` case of `scan_string`). -/
def encodeCp (cp : Nat) : Str :=
  if cp < 0x80 then [UInt8.ofNat cp]
  else if cp ≤ 0x7FF then [UInt8.ofNat (0xC0 + cp / 64), UInt8.ofNat (0x80 + cp % 64)]
  else if cp ≤ 0xFFFF then
    [UInt8.ofNat (0xE0 + cp / 4096), UInt8.ofNat (0x80 + cp / 64 % 64),
      UInt8.ofNat (0x80 + cp % 64)]
  else
    [UInt8.ofNat (0xF0 + cp / 262144), UInt8.ofNat (0x80 + cp / 4096 % 64),
      UInt8.ofNat (0x80 + cp / 64 % 64), UInt8.ofNat (0x80 + cp % 64)]

/-- The simple escapes of `lexer::scan_string`. -/
def simpleEsc (e : UInt8) : Option UInt8 :=
  if e = c!"\"" then some c!"\""
  else if e = c!"\\" then some c!"\\"
  else if e = c!"/" then some c!"/"
  else if e = c!"b" then some 0x08
  else if e = c!"f" then some 0x0C
  else if e = c!"n" then some 0x0A
  else if e = c!"r" then some 0x0D
  else if e = c!"t" then some 0x09
  else none

/-- Prepend scanned content to the result of scanning the rest. -/
def prep (p : Str) : Option (Str × Str) → Option (Str × Str)
  | some (s, r) => some (p ++ s, r)
  | none => none

/-- `lexer::scan_string` after the opening quote: the unescaped content and the
input after the closing quote. -/
def scanStr : Str → Option (Str × Str)
  | [] => none
  | b :: r =>
    if b = c!"\"" then some ([], r)
    else if b = c!"\\" then
      match r with
      | [] => none
      | e :: r =>
        if e = c!"u" then
          match r with
          | h1 :: h2 :: h3 :: h4 :: r =>
            match hex4 h1 h2 h3 h4 with
            | none => none
            | some cp =>
              if 0xD800 ≤ cp ∧ cp ≤ 0xDBFF then
                match r with
                | bs :: u :: g1 :: g2 :: g3 :: g4 :: r =>
                  if bs = c!"\\" ∧ u = c!"u" then
                    match hex4 g1 g2 g3 g4 with
                    | none => none
                    | some cp2 =>
                      if 0xDC00 ≤ cp2 ∧ cp2 ≤ 0xDFFF then
                        prep (encodeCp (0x10000 + (cp - 0xD800) * 1024 + (cp2 - 0xDC00)))
                          (scanStr r)
                      else none
                  else none
                | _ => none
              else if 0xDC00 ≤ cp ∧ cp ≤ 0xDFFF then none
              else prep (encodeCp cp) (scanStr r)
          | _ => none
        else
          match simpleEsc e with
          | some x => prep [x] (scanStr r)
          | none => none
    else if b < 0x20 then none
    else if b < 0x80 then prep [b] (scanStr r)
    else if inRange 0xC2 0xDF b then
      match r with
      | c1 :: r => if isCont c1 then prep [b, c1] (scanStr r) else none
      | _ => none
    else if b = 0xE0 then
      match r with
      | c1 :: c2 :: r =>
        if inRange 0xA0 0xBF c1 && isCont c2 then prep [b, c1, c2] (scanStr r) else none
      | _ => none
    else if inRange 0xE1 0xEC b || inRange 0xEE 0xEF b then
      match r with
      | c1 :: c2 :: r =>
        if isCont c1 && isCont c2 then prep [b, c1, c2] (scanStr r) else none
      | _ => none
    else if b = 0xED then
      match r with
      | c1 :: c2 :: r =>
        if inRange 0x80 0x9F c1 && isCont c2 then prep [b, c1, c2] (scanStr r) else none
      | _ => none
    else if b = 0xF0 then
      match r with
      | c1 :: c2 :: c3 :: r =>
        if inRange 0x90 0xBF c1 && isCont c2 && isCont c3 then
          prep [b, c1, c2, c3] (scanStr r) else none
      | _ => none
    else if inRange 0xF1 0xF3 b then
      match r with
      | c1 :: c2 :: c3 :: r =>
        if isCont c1 && isCont c2 && isCont c3 then
          prep [b, c1, c2, c3] (scanStr r) else none
      | _ => none
    else if b = 0xF4 then
      match r with
      | c1 :: c2 :: c3 :: r =>
        if inRange 0x80 0x8F c1 && isCont c2 && isCont c3 then
          prep [b, c1, c2, c3] (scanStr r) else none
      | _ => none
    else none

def isDigit (b : UInt8) : Bool := inRange 0x30 0x39 b

/-- Longest prefix of digits and the rest. -/
def spanDigits : Str → Str × Str
  | [] => ([], [])
  | b :: r =>
    if isDigit b then let (d, r') := spanDigits r; (b :: d, r') else ([], b :: r)

/-- Value of a string of decimal digits (`strtoull`). -/
def digitsVal (s : Str) : Nat := s.foldl (fun n b => 10 * n + (b.toNat - 48)) 0

/-- Integer part of `lexer::scan_number`: `0` or a non-zero digit and digits. -/
def scanInt (s : Str) : Option (Str × Str) :=
  match s with
  | [] => none
  | b :: r =>
    if b = c!"0" then some ([b], r)
    else if isDigit b then some (spanDigits (b :: r))
    else none

/-- Optional fraction. -/
def scanFrac (s : Str) : Option (Str × Str) :=
  match s with
  | [] => some ([], [])
  | b :: r =>
    if b = c!"." then
      match spanDigits r with
      | ([], _) => none
      | (d, r') => some (b :: d, r')
    else some ([], b :: r)

/-- Optional exponent. -/
def scanExp (s : Str) : Option (Str × Str) :=
  match s with
  | [] => some ([], [])
  | b :: r =>
    if b = c!"e" || b = c!"E" then
      match r with
      | [] => none
      | sg :: r' =>
        if sg = c!"+" || sg = c!"-" then
          match spanDigits r' with
          | ([], _) => none
          | (d, r'') => some (b :: sg :: d, r'')
        else
          match spanDigits r with
          | ([], _) => none
          | (d, r'') => some (b :: d, r'')
    else some ([], b :: r)

/-- Value of the exponent part that `scanExp` returned. -/
def expVal : Str → Int
  | _ :: sg :: d =>
    if sg = c!"-" then -(digitsVal d : Int)
    else if sg = c!"+" then (digitsVal d : Int)
    else (digitsVal (sg :: d) : Int)
  | _ => 0

/-- Does `m * 10 ^ k` exceed the range of a `double`?  Numbers from halfway between the
largest `double` and `2 ^ 1024` on are rounded to infinity. -/
def overflows (m : Nat) (k : Int) : Bool :=
  if 0 ≤ k then (2 ^ 54 - 1) * 2 ^ 970 ≤ m * 10 ^ k.toNat
  else (2 ^ 54 - 1) * 2 ^ 970 * 10 ^ (-k).toNat ≤ m

/-- A floating point token, kept as its lexeme.  The parser rejects it when `strtod` returns
infinity (`parser::sax_parse_internal`, `out_of_range.406`). -/
def mkFloat (sign i f e r : Str) : Option (JNum × Str) :=
  if overflows (digitsVal (i ++ f.drop 1)) (expVal e - ((f.drop 1).length : Int)) then none
  else some (.flt (sign ++ i ++ f ++ e), r)

/-- `lexer::scan_number`: unsigned / signed 64-bit integers, anything else is a
float. -/
def scanNum (s : Str) : Option (JNum × Str) :=
  match s with
  | [] => none
  | b :: r => do
    let neg := b = c!"-"
    let (i, r1) ← scanInt (if neg then r else b :: r)
    let (f, r2) ← scanFrac r1
    let (e, r3) ← scanExp r2
    let sign := if neg then [b] else []
    if f = [] ∧ e = [] then
      if neg then
        if digitsVal i ≤ 2 ^ 63 then pure (.nint (digitsVal i), r3) else mkFloat sign i f e r3
      else
        if digitsVal i < 2 ^ 64 then pure (.uint (digitsVal i), r3) else mkFloat sign i f e r3
    else mkFloat sign i f e r3

/-- `lexer::scan_literal`. -/
def scanLit (lit s : Str) : Option Str :=
  if lit.isPrefixOf s then some (s.drop lit.length) else none

/-! ## Parser -/

/-- Insert or overwrite a key, keeping its first position
(`ordered_map::operator[]` as used by `json_sax_dom_parser::key`). -/
def setKey (k : Str) (v : JVal) : List (Str × JVal) → List (Str × JVal)
  | [] => [(k, v)]
  | (k', v') :: l => if k' = k then (k', v) :: l else (k', v') :: setKey k v l

/-- Collect parsed members in order. -/
def mkObj (l : List (Str × JVal)) : List (Str × JVal) :=
  l.foldl (fun acc (k, v) => setKey k v acc) []

mutual
/-- `parser::sax_parse_internal` for one value; `fuel` bounds the number of
nested/sequential values (the callers pass more than the input length). -/
def parseV (fuel : Nat) (s : Str) : Option (JVal × Str) :=
  match fuel with
  | 0 => none
  | fuel + 1 =>
    match skipWs s with
    | [] => none
    | b :: r =>
      if b = c!"{" then
        match skipWs r with
        | [] => none
        | b' :: r' =>
          if b' = c!"}" then some (.obj [], r')
          else
            match parseMembers fuel (b' :: r') with
            | some (l, r'') => some (.obj (mkObj l), r'')
            | none => none
      else if b = c!"[" then
        match skipWs r with
        | [] => none
        | b' :: r' =>
          if b' = c!"]" then some (.arr [], r')
          else
            match parseElems fuel (b' :: r') with
            | some (l, r'') => some (.arr l, r'')
            | none => none
      else if b = c!"\"" then
        match scanStr r with
        | some (s, r') => some (.str s, r')
        | none => none
      else if b = c!"t" then
        match scanLit b!"rue" r with
        | some r' => some (.bool true, r')
        | none => none
      else if b = c!"f" then
        match scanLit b!"alse" r with
        | some r' => some (.bool false, r')
        | none => none
      else if b = c!"n" then
        match scanLit b!"ull" r with
        | some r' => some (.null, r')
        | none => none
      else if b = c!"-" || isDigit b then
        match scanNum (b :: r) with
        | some (n, r') => some (.num n, r')
        | none => none
      else none
/-- Array elements up to and including the closing bracket. -/
def parseElems (fuel : Nat) (s : Str) : Option (List JVal × Str) :=
  match fuel with
  | 0 => none
  | fuel + 1 =>
    match parseV fuel s with
    | none => none
    | some (v, r) =>
      match skipWs r with
      | [] => none
      | b :: r' =>
        if b = c!"]" then some ([v], r')
        else if b = c!"," then
          match parseElems fuel r' with
          | some (l, r'') => some (v :: l, r'')
          | none => none
        else none
/-- Object members up to and including the closing brace. -/
def parseMembers (fuel : Nat) (s : Str) : Option (List (Str × JVal) × Str) :=
  match fuel with
  | 0 => none
  | fuel + 1 =>
    match skipWs s with
    | [] => none
    | q :: r =>
      if q = c!"\"" then
        match scanStr r with
        | none => none
        | some (k, r) =>
          match skipWs r with
          | [] => none
          | c :: r =>
            if c = c!":" then
              match parseV fuel r with
              | none => none
              | some (v, r) =>
                match skipWs r with
                | [] => none
                | b :: r' =>
                  if b = c!"}" then some ([(k, v)], r')
                  else if b = c!"," then
                    match parseMembers fuel r' with
                    | some (l, r'') => some ((k, v) :: l, r'')
                    | none => none
                  else none
            else none
      else none
end

/-- `lexer::skip_bom`: a leading 0xEF must start a byte order mark. -/
def skipBom (s : Str) : Option Str :=
  match s with
  | [] => some []
  | b :: r =>
    if b = 0xEF then
      match r with
      | b1 :: b2 :: r => if b1 = 0xBB ∧ b2 = 0xBF then some r else none
      | _ => none
    else some (b :: r)

/-- The lexer reports `end_of_input` at the end of the buffer and at a NUL byte. -/
def atEnd (s : Str) : Bool :=
  match skipWs s with
  | [] => true
  | b :: _ => b = 0

/-- `json::parse(s, nullptr, false)`; `none` is the discarded value. -/
def parse (s : Str) : Option JVal :=
  match skipBom s with
  | none => none
  | some s =>
    match parseV (2 * s.length + 2) s with
    | none => none
    | some (v, r) => if atEnd r then some v else none

end Verif.Json
