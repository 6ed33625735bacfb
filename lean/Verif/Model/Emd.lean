import Verif.Model.ErrorRate
import Mathlib.Data.Rat.Defs
/-!
# Model of nisaba/translit/tools/emd_cer.py, of the numbers calculate_error_rate.cc writes for it, and
of the quoting of the candidates in its lines

Probabilities are exact rational numbers: the rounding of `exp`, of the decimals written and of sums
is left out.  The solver `pyemd.emd_with_flow` is a parameter.
-/
namespace Nisaba.Emd
open Nisaba Nisaba.ErrorRate Nisaba.Utf8

/-- The four arrays of a line (calculate_error_rate.cc:308-335; emd_cer.py:22-25). -/
structure JLine where
  p1 : List ℚ
  p2 : List ℚ
  D : List (List ℚ)
  L : List ℚ

/-- calculate_error_rate.cc:243-260 `GetDistances`, as numbers; see `ErrorRate.getDistances` for the
text.  Column `i` is read off all rows as in `TransposeMatrix`. -/
def distances (dists : List (List Nat)) : List (List ℚ) :=
  match dists with
  | [] => []
  | row :: _ =>
    dists.map (fun d => List.replicate dists.length 0 ++ d.map (fun x : Nat => (x : ℚ))) ++
      (List.range row.length).map (fun i =>
        dists.map (fun r => ((r.getD i 0 : Nat) : ℚ)) ++ List.replicate row.length 0)

/-- calculate_error_rate.cc:262-271 `GetLengths`: characters of the candidates. -/
def getLengths (refs : List Str) : List Nat := refs.map (fun s => (strSplitByChar s).length)

/-- calculate_error_rate.cc:299-336 `WritePairwiseEdits`: the arrays for hypotheses of probabilities
`a`, references of probabilities `b` and lengths `lens`, and the pairwise edits. -/
def jline (a b : List ℚ) (edits : List (List Nat)) (lens : List Nat) : JLine where
  p1 := a ++ List.replicate b.length 0
  p2 := List.replicate a.length 0 ++ b
  D := distances edits
  L := List.replicate a.length 0 ++ lens.map (fun x : Nat => (x : ℚ))

/-- `np.dot` of vectors of the same length. -/
def dot (x y : List ℚ) : ℚ := (List.zipWith (· * ·) x y).sum

/-- emd_cer.py:20-34 `earth_movers_distance`, `emd_error_and_length`, with the solver `emd`. -/
def emdErrorAndLength (emd : List ℚ → List ℚ → List (List ℚ) → ℚ × List (List ℚ)) (j : JLine) :
    ℚ × ℚ :=
  let r := emd j.p1 j.p2 j.D
  (r.1, r.2.foldl (fun refLen flow => refLen + dot flow j.L) 0)

/-- calculate_emd_cer.py:33-48 `main`: total edits and total reference length of the lines. -/
def totals (emd : List ℚ → List ℚ → List (List ℚ) → ℚ × List (List ℚ)) (js : List JLine) : ℚ × ℚ :=
  js.foldl (fun t j => (t.1 + (emdErrorAndLength emd j).1, t.2 + (emdErrorAndLength emd j).2)) (0, 0)

/-- calculate_error_rate.cc:192-209 `WriteCands`: the text between the braces for candidates with
their numbers as text. -/
def writeCands : Bool → List (Str × Str) → Str
  | _, [] => []
  | first, (w, n) :: l =>
    (if first then [34] else [44, 32, 34]) ++ w ++ [34, 58, 32] ++ n ++ writeCands false l

/-- Hexadecimal digit. -/
def hexDigit (c : Nat) : Option Nat :=
  if 48 ≤ c ∧ c ≤ 57 then some (c - 48)
  else if 65 ≤ c ∧ c ≤ 70 then some (c - 55)
  else if 97 ≤ c ∧ c ≤ 102 then some (c - 87)
  else none

/-- The characters of JSON escapes (RFC 8259, section 7) without `u`. -/
def escaped (c : Nat) : Option Nat :=
  if c = 34 ∨ c = 92 ∨ c = 47 then some c
  else if c = 98 then some 8 else if c = 102 then some 12 else if c = 110 then some 10
  else if c = 114 then some 13 else if c = 116 then some 9 else none

/-- `json.loads` on a string literal after the opening quote, as in RFC 8259: its value and the text
after the closing quote.  An escape `\uXXXX` gives the code unit. -/
def jsonString : Str → Option (Str × Str)
  | [] => none
  | 34 :: rest => some ([], rest)
  | 92 :: 117 :: a :: b :: c :: d :: rest =>
    match hexDigit a, hexDigit b, hexDigit c, hexDigit d with
    | some a, some b, some c, some d =>
      (jsonString rest).map fun r => ((((a * 16 + b) * 16 + c) * 16 + d) :: r.1, r.2)
    | _, _, _, _ => none
  | 92 :: e :: rest =>
    match escaped e with
    | some c => (jsonString rest).map fun r => (c :: r.1, r.2)
    | none => none
  | c :: rest =>
    if c < 32 ∨ c = 92 then none else (jsonString rest).map fun r => (c :: r.1, r.2)

/-- `json.loads` on the members of an object after the opening brace, up to the closing brace, for
members as `writeCands` separates them; the numbers are kept as text (the text up to a comma or a
closing brace). -/
def jsonMembers : Nat → Str → Option (List (Str × Str) × Str)
  | 0, _ => none
  | n + 1, text =>
    match text with
    | 34 :: rest =>
      match jsonString rest with
      | some (w, 58 :: 32 :: rest) =>
        let num := rest.takeWhile (fun c => c != 44 && c != 125)
        match rest.drop num.length with
        | 125 :: rest => some ([(w, num)], rest)
        | 44 :: 32 :: rest => (jsonMembers n rest).map fun r => ((w, num) :: r.1, r.2)
        | _ => none
      | _ => none
    | _ => none

end Nisaba.Emd
