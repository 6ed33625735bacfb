import Verif.Model.Wordpiece
import Verif.Model.FileUtil
/-!
# Model of the vocabulary file and the text output of nisaba/translit/fst/wordpiece-segmenter.cc

The file system is left out: `initFromFile` works on the contents of a file that could be opened.
-/
namespace Nisaba.Wordpiece

/-- wordpiece-segmenter.cc:140-147, the loop over the lines of the file; `acc` is `wordpieces`.
`none` is the exception thrown by the delimiter on invalid UTF-8. -/
def readPieces (acc : List (List Nat)) : List (List Nat) → Option (List (List Nat))
  | [] => some acc
  | line :: lines =>
    match Utf8.strSplit Utf8.whitespaceDelimiter line with
    | none => none
    | some toks =>
      match toks.filter fun t => !t.isEmpty with
      | [] => readPieces acc lines
      | t :: _ => readPieces (acc ++ [t]) lines

/-- wordpiece-segmenter.cc:131-152 `InitWordpieces` for a file, after the constructor with the
prefix `pre`. -/
def initFromFile (pre contents : List Nat) : Option Segmenter :=
  (readPieces [] (FileUtil.getLines [] contents)).map (mkSegmenter pre)

/-- `absl::StrJoin(pieces, " ")`. -/
def joinSpace : List (List Nat) → List Nat
  | [] => []
  | [p] => p
  | p :: q :: ps => p ++ 32 :: joinSpace (q :: ps)

/-- wordpiece-segmenter.cc:248-253 `TokenizeInput`.  The outer `none` is the exception thrown on
invalid UTF-8. -/
def tokenizeInput (seg : Segmenter) (text : List Nat) : Option (Option (Except Err (List Nat))) :=
  match getWordpieces seg text with
  | none => none
  | some none => some none
  | some (some (.error e)) => some (some (.error e))
  | some (some (.ok ps)) => some (some (.ok (joinSpace ps)))

end Nisaba.Wordpiece
