import Verif.Model.Tables
/-!
# Model of nisaba/port/file.cc

An open file is the list of the bytes that have not been read yet.  A read error is modelled by
cutting that list where the error occurs: `fread` and `fgets` then stop there as at the end of the
file, and the code does not call `ferror`.
-/
namespace Nisaba.PortFile

/-- Conversion of a `uint64_t` to `int64_t`. -/
def toInt64 (n : Nat) : Int := if n < 2 ^ 63 then (n : Int) else (n : Int) - 2 ^ 64

/-- Conversion of a 64-bit integer to `int`, of 32 bits. -/
def toInt32 (n : Int) : Int :=
  if n % 2 ^ 32 < 2 ^ 31 then n % 2 ^ 32 else n % 2 ^ 32 - 2 ^ 32

/-- The C library function `fread(buf, 1, size, f)`: the bytes read and the bytes left. -/
def fread (rest : Str) (size : Nat) : Str × Str := (rest.take size, rest.drop size)

/-- nisaba/port/file.cc:117-125: the loop of `ReadToString`; `out` is the output so far. -/
def readLoop (bufsize : Nat) (needed : Nat) (out rest : Str) : Str × Str :=
  if needed = 0 then (out, rest)
  else
    let got := fread rest (if bufsize < needed then bufsize else needed)
    if _h : 0 < got.1.length then readLoop bufsize (needed - got.1.length) (out ++ got.1) got.2
    else (out, got.2)
termination_by rest.length
decreasing_by
  simp only [got, fread, List.length_take, List.length_drop] at _h ⊢
  omega

/-- Result of `ReadToString`: the exception of `new char[bufsize]` with a negative size, or the
returned number, the output string and the bytes left in the file. -/
inductive ReadResult where
  | badArrayNewLength
  | ok (ret : Int) (output rest : Str)
  deriving DecidableEq

/-- nisaba/port/file.cc:105-127 `File::ReadToString`.  `fread` returns an unsigned number, so that
`nread` is never negative and the value -1 is never returned. -/
def readToString (rest : Str) (maxLength : Nat) : ReadResult :=
  if maxLength = 0 then .ok 0 [] rest
  else
    let needed := toInt64 maxLength
    let bufsize := if needed < 2 ^ 21 then toInt32 needed else 2 ^ 21
    if bufsize < 0 then .badArrayNewLength
    else
      let r := readLoop bufsize.toNat needed.toNat [] rest
      .ok r.1.length r.1 r.2

/-- The C library function `fgets(output, n, f)`: the bytes stored and the bytes left, or `none` for
`NULL`.  With `n = 1` nothing is read and the string is empty. -/
def fgetsAux : Nat → Str → Str × Str
  | 0, rest => ([], rest)
  | _ + 1, [] => ([], [])
  | n + 1, c :: rest => if c = 10 then ([c], rest) else
    let r := fgetsAux n rest
    (c :: r.1, r.2)

/-- `fgets`, see `fgetsAux`. -/
def fgets (n : Int) (rest : Str) : Option (Str × Str) :=
  if n ≤ 0 then none
  else if n = 1 then some ([], rest)
  else if rest = [] then none
  else some (fgetsAux (n.toNat - 1) rest)

/-- The C string in a buffer: the bytes before the first NUL. -/
def cString (s : Str) : Str := s.takeWhile (· != 0)

/-- nisaba/port/file.cc:101-103 `File::ReadLine`: `fgets` with the length converted to `int`. -/
def readLine (rest : Str) (maxLength : Nat) : Option (Str × Str) :=
  (fgets (toInt32 maxLength) rest).map fun r => (cString r.1, r.2)

/-- nisaba/port/file.cc:133-136 `File::WriteLine` on a file that accepts every byte: what the file
holds afterwards. -/
def writeLine (file line : Str) : Str := file ++ line ++ [10]

/-- nisaba/port/file.cc:129-131 `File::WriteString`, likewise. -/
def writeString (file line : Str) : Str := file ++ line

/-- Calls of `ReadLine` until it returns `NULL` return these lines. -/
inductive Lines (maxLength : Nat) : Str → List Str → Prop
  | done {rest : Str} : readLine rest maxLength = none → Lines maxLength rest []
  | more {rest rest' line : Str} {ls : List Str} : readLine rest maxLength = some (line, rest') →
      Lines maxLength rest' ls → Lines maxLength rest (line :: ls)

end Nisaba.PortFile
