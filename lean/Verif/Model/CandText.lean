import Verif.Model.LatticeText
/-!
# Model of lists of candidates as text

nisaba/translit/tools/kbest-full-string-util.cc: the files written by the extractor, the ensemble and
the rejoiner, and read by the ensemble and the rejoiner.  Numbers with a fraction are written by
`fmt` and read by `parse` as in `LatticeText`.
-/
namespace Nisaba.CandText
open Nisaba
open Nisaba.ErrorRate (Err strJoin decimal)
open Nisaba.Extract (readInputs)
open Nisaba.LatticeText (fields)

variable {κ : Type}

/-- `std::to_string(int)`. -/
def intText (i : Int) : Str := if i < 0 then 45 :: decimal i.natAbs else decimal i.natAbs

/-- A text in the extractor: its index, its words and what `GetBest` returns for it
(kbest-full-string-util.cc:602). -/
structure Extracted (κ : Type) where
  index : Int
  words : Str
  best : List (Str × κ)

/-- A line written by the extractor (kbest-full-string-util.cc:604-613). -/
def extractLine (fmt : κ → Str) (kbest : Int) (showScore fullInput : Bool) (t : Extracted κ)
    (c : Str × κ) : Str :=
  let result := if showScore then c.1 ++ [9] ++ fmt c.2 else c.1
  let input := if fullInput then t.words else intText t.index
  if kbest > 1 then input ++ [9] ++ result ++ [10] else result ++ [10]

/-- kbest-full-string-util.cc:595-617 `RunExtractorAndOutput`: the contents of the file. -/
def extractorOutput (fmt : κ → Str) (kbest : Int) (showScore fullInput : Bool)
    (ts : List (Extracted κ)) : Str :=
  ts.flatMap fun t => t.best.flatMap (extractLine fmt kbest showScore fullInput t)

/-- kbest-full-string-util.cc:515-533 `RunEnsembleAndOutput` and 694-712 `RunRejoinerAndOutput`: the
contents of the file from the list of candidates of every text. -/
def listsOutput (fmt : κ → Str) (lists : List (List (Str × κ))) : Str :=
  lists.zipIdx.flatMap fun p => p.1.flatMap fun c => strJoin [9] [decimal p.2, c.1, fmt c.2] ++ [10]

/-- A line of candidates (kbest-full-string-util.cc:163-175 and 650-668): three fields. -/
def parseCand (parse : Str → Option κ) (s : Str) : Except Err (Str × Str × κ) :=
  match fields s with
  | [i, y, v] =>
    match parse v with
    | some v => .ok (i, y, v)
    | none => .error .outOfRange
  | _ => .error .check

/-- The lines of a file of candidates, parsed.  The program parses them in the loops that use them;
this can only change which of several failures is reported. -/
def parseFile (parse : Str → Option κ) (contents : Str) : Except Err (List (Str × Str × κ)) :=
  match FileUtil.readLines contents 51200 with
  | none => .error .outOfRange
  | some lines => lines.mapM (parseCand parse)

/-- kbest-full-string-util.cc:150-177 `ReadInputs` on the contents of a file. -/
def readInputsFile (parse : Str → Option κ) (contents : Str) : Except Err (List (List (Str × κ))) :=
  match parseFile parse contents with
  | .error e => .error e
  | .ok lines =>
    match readInputs lines with
    | none => .error .invalidUtf8
    | some r => .ok r

/-- kbest-full-string-util.cc:618-674 `InitializeKbestRejoiner` on the contents of the file of
candidates and the numbers of the other file. -/
def rejoinerFile (parse : Str → Option Rat) (contents : Str) (outputIndices : List Nat) (kbest : Int) :
    Except Err (List (List (List Kbest.Cand)) × Int) :=
  match parseFile parse contents with
  | .error e => .error e
  | .ok lines => Kbest.initRejoiner lines outputIndices kbest

end Nisaba.CandText
