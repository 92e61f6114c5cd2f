/-!
# Byte strings

A C++ `std::string` is modelled as a list of bytes.  `b!"..."` is a literal for
such a list (the UTF-8 bytes of the Lean literal), `c!"x"` is a literal for one
ASCII byte.
-/

namespace Verif

/-- A C++ `std::string`: an arbitrary finite sequence of bytes. -/
abbrev Str := List UInt8

open Lean in
/-- `b!"abc"` is the list of the bytes of the literal. -/
macro:max "b!" s:str : term => do
  let elems ← s.getString.toUTF8.toList.toArray.mapM fun b =>
    `(($(Syntax.mkNumLit (toString b.toNat)) : UInt8))
  `(([$elems,*] : Verif.Str))

open Lean in
/-- `c!"x"` is the byte of a one-character ASCII literal. -/
macro:max "c!" s:str : term => do
  match s.getString.toUTF8.toList with
  | [b] => `(($(Syntax.mkNumLit (toString b.toNat)) : UInt8))
  | _ => Macro.throwError "c! expects exactly one ASCII character"

end Verif
