import Verif.Model.Tables
/-!
# Model of nisaba/port/utf8_util.cc

Byte strings are lists of numbers.  The header-only library `utf8cpp` used by the code
(`utf8::append`, `utf8::is_valid`, `utf8::iterator`) is not part of the repository; `encodeRaw` and
`decodeNext` model its documented behaviour: `append` rejects code points that are not scalar
values, `validate_next` rejects bad lead bytes, bad or missing trail bytes, overlong sequences and
code points that are not scalar values.
-/
namespace Nisaba.Utf8

/-- Unicode scalar values (`utf8::internal::is_code_point_valid`). -/
def isScalar (c : Nat) : Bool := c ≤ 0x10FFFF && !(0xD800 ≤ c && c ≤ 0xDFFF)

/-- The bytes written by `utf8::append` for a scalar value. -/
def encodeRaw (c : Nat) : List Nat :=
  if c < 0x80 then [c]
  else if c < 0x800 then [0xC0 + c / 64, 0x80 + c % 64]
  else if c < 0x10000 then [0xE0 + c / 4096, 0x80 + c / 64 % 64, 0x80 + c % 64]
  else [0xF0 + c / 262144, 0x80 + c / 4096 % 64, 0x80 + c / 64 % 64, 0x80 + c % 64]

/-- nisaba/port/utf8_util.cc:91-95 `EncodeUnicodeChar`.  `none` is the exception
`utf8::invalid_code_point`. -/
def encodeUnicodeChar (c : Nat) : Option (List Nat) :=
  if isScalar c then some (encodeRaw c) else none

/-- Trail byte (`utf8::internal::is_trail`). -/
def isTrail (b : Nat) : Bool := b / 64 == 2

/-- `utf8::internal::is_overlong_sequence`. -/
def isOverlong (c len : Nat) : Bool :=
  if c < 0x80 then len != 1
  else if c < 0x800 then len != 2
  else if c < 0x10000 then len != 3
  else false

/-- Last checks of `utf8::internal::validate_next`. -/
def checkNext (c len : Nat) (rest : List Nat) : Option (Nat × List Nat) :=
  if isScalar c && !isOverlong c len then some (c, rest) else none

/-- `utf8::internal::validate_next`: first code point and remaining bytes. -/
def decodeNext : List Nat → Option (Nat × List Nat)
  | [] => none
  | b :: s =>
    if b < 0x80 then checkNext b 1 s
    else if b / 32 = 6 then
      match s with
      | b1 :: s => if isTrail b1 then checkNext (b % 32 * 64 + b1 % 64) 2 s else none
      | _ => none
    else if b / 16 = 14 then
      match s with
      | b1 :: b2 :: s =>
        if isTrail b1 && isTrail b2 then
          checkNext (b % 16 * 4096 + b1 % 64 * 64 + b2 % 64) 3 s else none
      | _ => none
    else if b / 8 = 30 then
      match s with
      | b1 :: b2 :: b3 :: s =>
        if isTrail b1 && isTrail b2 && isTrail b3 then
          checkNext (b % 8 * 262144 + b1 % 64 * 4096 + b2 % 64 * 64 + b3 % 64) 4 s else none
      | _ => none
    else none

/-- Code points of a valid string, `none` for an invalid one: repeated `validate_next`, as in
`utf8::is_valid`, `utf8::distance` and iteration with `utf8::iterator`.  The first argument bounds
the number of steps; the length of the string is enough. -/
def decodeSteps : Nat → List Nat → Option (List Nat)
  | _, [] => some []
  | 0, _ :: _ => none
  | n + 1, b :: s =>
    match decodeNext (b :: s) with
    | none => none
    | some (c, rest) =>
      match decodeSteps n rest with
      | none => none
      | some cs => some (c :: cs)

/-- See `decodeSteps`. -/
def decodeAll (s : List Nat) : Option (List Nat) := decodeSteps s.length s

/-- `utf8::is_valid`. -/
def isValid (s : List Nat) : Bool := (decodeAll s).isSome

/-- nisaba/port/utf8_util.h:31 `kBadUTF8Char`. -/
def badChar : Nat := 0xFFFD

/-- nisaba/port/utf8_util.cc:30-47 `StrSplitByChar`.  The loop over `utf8::iterator` appends the
encoding of each code point in turn. -/
def strSplitByChar (s : List Nat) : List (List Nat) :=
  if !isValid s then []
  else match decodeAll s with
    | none => []
    | some cs => cs.map encodeRaw

/-- nisaba/port/utf8_util.cc:49-67 `DecodeUnicodeChar`: the character stored and the number of
bytes returned. -/
def decodeUnicodeChar (s : List Nat) : Nat × Nat :=
  if s.isEmpty then (0, 1)
  else if !isValid s then (badChar, 1)
  else match decodeNext s with
    | none => (badChar, 1)
    | some (c, rest) => (c, s.length - rest.length)

/-- nisaba/port/utf8_util.cc:78-89 `DecodeSingleUnicodeChar`: the value returned and the
character stored. -/
def decodeSingleUnicodeChar (s : List Nat) : Bool × Nat :=
  let (c, n) := decodeUnicodeChar s
  let c' := if n != s.length && c != badChar then badChar else c
  (n == s.length && (c' != badChar || n > 1), c')

/-- nisaba/port/utf8_util.cc:69-76 `StrSplitByCharToUnicode`. -/
def strSplitByCharToUnicode (s : List Nat) : List Nat :=
  (strSplitByChar s).map fun ch => (decodeSingleUnicodeChar ch).2

end Nisaba.Utf8
