import Verif.Model.Utf8
/-!
# Model of nisaba/port/utf8_delimiters.cc and nisaba/port/unicode_properties.cc
-/
namespace Nisaba.Utf8

/-- Body of the loop of `Find`: `off` bytes of the tail have been read.  `none` is the exception
thrown by `utf8::next` on invalid UTF-8.  The first argument bounds the number of steps. -/
def findFrom (delims : Nat → Bool) : Nat → Nat → List Nat → Option (Nat × Nat)
  | _, off, [] => some (off, 0)
  | 0, _, _ :: _ => none
  | n + 1, off, b :: s =>
    match decodeNext (b :: s) with
    | none => none
    | some (c, rest) =>
      let len := (b :: s).length - rest.length
      if delims c then some (off, len) else findFrom delims n (off + len) rest

/-- nisaba/port/utf8_delimiters.cc:33-50 `Utf8Delimiter::Find`: offset from the start of the text
and length of the delimiter found. -/
def find (delims : Nat → Bool) (text : List Nat) (pos : Nat) : Option (Nat × Nat) :=
  let tail := text.drop pos
  match findFrom delims tail.length 0 tail with
  | none => none
  | some (off, len) => some (min pos text.length + off, len)

/-- `absl::StrSplit(text, delimiter)`: Abseil's `SplitIterator` (not in the repository) calls
`Find(text, pos)`, emits the text up to the delimiter and continues after it; a delimiter found at
the end of the text marks the last piece.  The first argument bounds the number of pieces. -/
def splitLoop (delims : Nat → Bool) (text : List Nat) : Nat → Nat → Option (List (List Nat))
  | 0, _ => none
  | n + 1, pos =>
    match find delims text pos with
    | none => none
    | some (at_, len) =>
      let piece := (text.drop pos).take (at_ - pos)
      if at_ = text.length then some [piece]
      else match splitLoop delims text n (pos + piece.length + len) with
        | none => none
        | some ps => some (piece :: ps)

/-- See `splitLoop`. -/
def strSplit (delims : Nat → Bool) (text : List Nat) : Option (List (List Nat)) :=
  splitLoop delims text (text.length + 1) 0

/-- nisaba/port/unicode_properties.cc:24-50 `kBreakingWhitespace`. -/
def breakingWhitespace : List Nat :=
  [0x9, 0xA, 0xB, 0xC, 0xD, 0x20, 0x85, 0xA0, 0x1680, 0x2000, 0x2001, 0x2002, 0x2003, 0x2004,
   0x2005, 0x2006, 0x2007, 0x2008, 0x2009, 0x200A, 0x2028, 0x2029, 0x202F, 0x205F, 0x3000]

/-- nisaba/port/unicode_properties.cc:52-59 `kNonBreakingWhitespace`. -/
def nonBreakingWhitespace : List Nat := [0x180E, 0x200B, 0x200C, 0x200D, 0x2060, 0xFEFF]

/-- `std::set_union` of two sorted ranges: the merge loop of the standard algorithm.  The first
argument bounds the number of steps. -/
def setUnion : Nat → List Nat → List Nat → List Nat
  | 0, _, _ => []
  | _ + 1, [], b => b
  | _ + 1, a, [] => a
  | n + 1, x :: a, y :: b =>
    if x < y then x :: setUnion n a (y :: b)
    else if y < x then y :: setUnion n (x :: a) b
    else x :: setUnion n a b

/-- nisaba/port/unicode_properties.cc:73-80 `GetAllWhitespaceChars`. -/
def allWhitespace : List Nat :=
  setUnion (breakingWhitespace.length + nonBreakingWhitespace.length + 1) breakingWhitespace nonBreakingWhitespace

/-- nisaba/port/utf8_delimiters.cc:29-30 `Utf8WhitespaceDelimiter`. -/
def whitespaceDelimiter (c : Nat) : Bool := breakingWhitespace.contains c

end Nisaba.Utf8
