import Verif.Generator.Model

/-!
# MessagePack blobs

`TypedCustomBlobHandler` (`custom_blob_handler.h:73-103`) for `std::vector<std::string>`,
the only instance in /repo (`file_generator.cpp:30,63-65`).  `json::to_msgpack` and
`json::from_msgpack` are nlohmann functions outside of /repo; modelled after the
MessagePack specification and their documentation.

Simplification: the decoded value is kept only as far as conversion to
`std::vector<std::string>` looks at it.
-/

namespace Verif.Generator
open Verif

/-- A decoded value: a string, an array (with its items if all of them are strings), or
anything else. -/
inductive Msg where
  | str (s : Str)
  | arr (items : Option (List Str))
  | other
deriving DecidableEq, Repr

/-- Result of a decoder: a value and the rest of the input, malformed or truncated input,
or no fuel left. -/
inductive Res (α : Type) where
  | done (a : α) (rest : Blob)
  | bad
  | fuel
deriving DecidableEq, Repr

/-- The number with these bytes, most significant byte first. -/
def beNat (l : Blob) : Nat := l.foldl (fun n b => n * 256 + b.toNat) 0

/-- The next `n` bytes. -/
def takeN (n : Nat) (l : Blob) : Res Blob :=
  if n ≤ l.length then .done (l.take n) (l.drop n) else .bad

/-- A length field of `k` bytes. -/
def takeLen (k : Nat) (l : Blob) : Res Nat :=
  match takeN k l with
  | .done b r => .done (beNat b) r
  | _ => .bad

/-- A length field of `k` bytes followed by that many bytes. -/
def takeStr (k : Nat) (l : Blob) : Res Str :=
  match takeLen k l with
  | .done n r => takeN n r
  | _ => .bad

/-- Skip `n` bytes of a value that is not looked at. -/
def skip (n : Nat) (l : Blob) : Res Msg :=
  match takeN n l with
  | .done _ r => .done .other r
  | _ => .bad

/-- Skip a length field of `k` bytes, that many bytes and `extra` more. -/
def skipLen (k extra : Nat) (l : Blob) : Res Msg :=
  match takeLen k l with
  | .done n r => skip (n + extra) r
  | _ => .bad

/-- `get_msgpack_string`: a string, as needed for the keys of an object. -/
def key : Blob → Res Str
  | [] => .bad
  | b :: r =>
    if 0xA0 ≤ b ∧ b ≤ 0xBF then takeN (b.toNat - 0xA0) r
    else if b = 0xD9 then takeStr 1 r
    else if b = 0xDA then takeStr 2 r
    else if b = 0xDB then takeStr 4 r
    else .bad

def Msg.cons (m : Msg) (l : Option (List Str)) : Option (List Str) :=
  match m, l with
  | .str s, some l => some (s :: l)
  | _, _ => none

def arrOf : Res (Option (List Str)) → Res Msg
  | .done l r => .done (.arr l) r
  | .bad => .bad
  | .fuel => .fuel

mutual

/-- One value (`parse_msgpack_internal`). -/
def decode : Nat → Blob → Res Msg
  | 0, _ => .fuel
  | _ + 1, [] => .bad
  | f + 1, b :: r =>
    if b ≤ 0x7F then .done .other r                                  -- positive fixint
    else if b ≤ 0x8F then fields f (b.toNat - 0x80) r                -- fixmap
    else if b ≤ 0x9F then arrOf (items f (b.toNat - 0x90) r)         -- fixarray
    else if b ≤ 0xBF ∨ b = 0xD9 ∨ b = 0xDA ∨ b = 0xDB then           -- fixstr, str 8, 16, 32
      match key (b :: r) with
      | .done s r => .done (.str s) r
      | _ => .bad
    else if b = 0xC0 ∨ b = 0xC2 ∨ b = 0xC3 then .done .other r       -- nil, false, true
    else if b = 0xC1 then .bad                                       -- never used
    else if b = 0xC4 then skipLen 1 0 r                              -- bin 8, 16, 32
    else if b = 0xC5 then skipLen 2 0 r
    else if b = 0xC6 then skipLen 4 0 r
    else if b = 0xC7 then skipLen 1 1 r                              -- ext 8, 16, 32
    else if b = 0xC8 then skipLen 2 1 r
    else if b = 0xC9 then skipLen 4 1 r
    else if b = 0xCA then skip 4 r                                   -- float 32, 64
    else if b = 0xCB then skip 8 r
    else if b = 0xCC ∨ b = 0xD0 then skip 1 r                        -- uint and int 8 … 64
    else if b = 0xCD ∨ b = 0xD1 then skip 2 r
    else if b = 0xCE ∨ b = 0xD2 then skip 4 r
    else if b = 0xCF ∨ b = 0xD3 then skip 8 r
    else if b = 0xD4 then skip 2 r                                   -- fixext 1 … 16
    else if b = 0xD5 then skip 3 r
    else if b = 0xD6 then skip 5 r
    else if b = 0xD7 then skip 9 r
    else if b = 0xD8 then skip 17 r
    else if b = 0xDC then                                            -- array 16, 32
      match takeLen 2 r with
      | .done n r => arrOf (items f n r)
      | _ => .bad
    else if b = 0xDD then
      match takeLen 4 r with
      | .done n r => arrOf (items f n r)
      | _ => .bad
    else if b = 0xDE then                                            -- map 16, 32
      match takeLen 2 r with
      | .done n r => fields f n r
      | _ => .bad
    else if b = 0xDF then
      match takeLen 4 r with
      | .done n r => fields f n r
      | _ => .bad
    else .done .other r                                              -- negative fixint

/-- The items of an array (`get_msgpack_array`). -/
def items : Nat → Nat → Blob → Res (Option (List Str))
  | 0, _, _ => .fuel
  | _ + 1, 0, r => .done (some []) r
  | f + 1, n + 1, r =>
    match decode f r with
    | .bad => .bad
    | .fuel => .fuel
    | .done m r =>
      match items f n r with
      | .bad => .bad
      | .fuel => .fuel
      | .done l r => .done (m.cons l) r

/-- The members of an object (`get_msgpack_object`). -/
def fields : Nat → Nat → Blob → Res Msg
  | 0, _, _ => .fuel
  | _ + 1, 0, r => .done .other r
  | f + 1, n + 1, r =>
    match key r with
    | .bad => .bad
    | .fuel => .fuel
    | .done _ r =>
      match decode f r with
      | .bad => .bad
      | .fuel => .fuel
      | .done _ r => fields f n r

end

/-- `json::from_msgpack(data, strict = true, allow_exceptions = false)`; `none` is a
discarded value.  The fuel always suffices (`parse_fuel`). -/
def parse (b : Blob) : Option Msg :=
  match decode (2 * b.length + 1) b with
  | .done m [] => some m
  | _ => none

/-- `TypedCustomBlobHandler::Deserialize` (`custom_blob_handler.h:79-84`); `none` is an
exception of `get_to`. -/
def deserialize (b : Blob) : Option (List Str) :=
  match parse b with
  | some (.arr (some l)) => some l
  | _ => none

/-- `k` bytes, most significant first. -/
def be : Nat → Nat → Blob
  | 0, _ => []
  | k + 1, n => be k (n / 256) ++ [UInt8.ofNat (n % 256)]

/-- Head of a string (`write_msgpack`, string case).  Nothing is written for strings
longer than the format allows. -/
def strHead (n : Nat) : Blob :=
  if n ≤ 31 then [UInt8.ofNat (0xA0 + n)]
  else if n < 2 ^ 8 then 0xD9 :: be 1 n
  else if n < 2 ^ 16 then 0xDA :: be 2 n
  else if n < 2 ^ 32 then 0xDB :: be 4 n
  else []

/-- Head of an array (`write_msgpack`, array case). -/
def arrHead (n : Nat) : Blob :=
  if n ≤ 15 then [UInt8.ofNat (0x90 + n)]
  else if n < 2 ^ 16 then 0xDC :: be 2 n
  else if n < 2 ^ 32 then 0xDD :: be 4 n
  else []

/-- `TypedCustomBlobHandler::Serialize` (`custom_blob_handler.h:99-102`). -/
def encode (l : List Str) : Blob := arrHead l.length ++ l.flatMap fun s => strHead s.length ++ s

/-- `TypedCustomBlobHandler<std::vector<std::string>>(data)`
(`custom_blob_handler.h:86-102`). -/
def typedHandler (data : List Str) : Handler where
  verify := fun b => (parse b).isSome
  isEqual := fun a b =>
    match deserialize a, deserialize b with
    | some x, some y => some (x == y)
    | _, _ => none
  serialize := some (encode data)

end Verif.Generator
