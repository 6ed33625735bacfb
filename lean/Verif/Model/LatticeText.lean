import Verif.Model.Extract
import Verif.Model.PairLM
import Verif.Model.FileUtil
/-!
# Model of lattices as text: the output of the decoder and the input of the k-best extractor

nisaba/translit/fst/pairlm_decoder.cc, pairlm_decoder_runner.cc and
nisaba/translit/tools/kbest-full-string-util.cc.  Numbers with a fraction are written by `fmt` and
read by `parse`, which are arbitrary here: Abseil writes a `float` with six digits and `std::stod`
reads a `double`.
-/
namespace Nisaba.LatticeText
open Nisaba Nisaba.Fst
open Nisaba.ErrorRate (Err strJoin decimal)
open Nisaba.Extract (symName Line initExtractor)
open Nisaba.Kbest (words)

variable {κ : Type}

/-! ## Writing -/

/-- What the decoder knows of a line (`TranslitContext`): the symbol tables of the input words and of
the candidates, and for every word the labels and weights of its candidates, in the order of the arcs
of the finished lattice. -/
structure Context (κ : Type) where
  isyms : SymTab
  osyms : SymTab
  cands : Str → List (Nat × κ)

/-- Arcs of a word (pairlm_decoder.cc:1040-1056): a new state, and the arcs to it. -/
def addWord (f : VFst κ) (curr ilabel : Nat) (cs : List (Nat × κ)) : VFst κ × Nat :=
  let r := f.addState
  (cs.foldl (fun g c => g.addArc curr ⟨ilabel, c.1, c.2, r.2⟩) r.1, r.2)

/-- Loop of pairlm_decoder.cc:1036-1058 with its checks: a word has candidates, and a label above 0
(that of the epsilon symbol). -/
def addWords (C : Context κ) : VFst κ → Nat → List Str → Except Err (VFst κ × Nat)
  | f, curr, [] => .ok (f, curr)
  | f, curr, w :: ws =>
    if C.cands w = [] then .error .check
    else match C.isyms.find w with
      | none => .error .check
      | some l =>
        if l = 0 then .error .check
        else addWords C (addWord f curr l (C.cands w)).1 (addWord f curr l (C.cands w)).2 ws

/-- pairlm_decoder.cc:1007-1063 `BuildTransliterationFst` for a decoder without language model, given
the words of the line and the candidates.  The sort of the arcs is left out, and so are the final
filter and the sampling of `TransliterateString` (1206-1218): they choose among the candidates of
every word and leave the states in order; `C.cands` are the arcs that are left. -/
def buildFst (C : Context κ) (ws : List Str) : Except Err (VFst κ) :=
  match addWords C ((({} : VFst κ).addState.1).setStart 0) 0 ws with
  | .error e => .error e
  | .ok r => .ok (r.1.setFinal r.2)

/-- Columns of an arc (pairlm_decoder.cc:1234-1239). -/
def columns (fmt : κ → Str) (isyms osyms : SymTab) (s : Nat) (a : Arc κ) : Str :=
  strJoin [9] [decimal s, symName isyms a.ilabel, symName osyms a.olabel, fmt a.weight]

/-- The line of an arc (pairlm_decoder.cc:1240-1245). -/
def arcLine (fmt : κ → Str) (isyms osyms : SymTab) (pre : Str) (s : Nat) (a : Arc κ) : Str :=
  if pre = [] then columns fmt isyms osyms s a
  else strJoin [9] [pre, columns fmt isyms osyms s a]

/-- Loop of pairlm_decoder.cc:1229-1254: the lines of the states from `s` on.  The arcs of a state
that does not exist are out of range; arcs of a state to different states fail the check.  The first
argument bounds the number of steps; a walk with more steps than states is in a cycle and does not
end in the program, `none` stands for it. -/
def walk (fmt : κ → Str) (isyms osyms : SymTab) (pre : Str) (f : VFst κ) :
    Nat → Nat → Option (Except Err (List Str))
  | 0, _ => none
  | n + 1, s =>
    match f.arcs[s]? with
    | none => some (.error .outOfRange)
    | some [] => some (.ok [])
    | some (a :: as) =>
      if as.all (fun b => b.next == a.next) then
        match walk fmt isyms osyms pre f n a.next with
        | some (.ok ls) => some (.ok ((a :: as).map (arcLine fmt isyms osyms pre s) ++ ls))
        | r => r
      else some (.error .check)

/-- pairlm_decoder.cc:1224-1257 `PrintTransliterations`. -/
def printTransliterations (fmt : κ → Str) (isyms osyms : SymTab) (pre : Str) (f : VFst κ)
    (finalEndline : Bool) : Option (Except Err Str) :=
  match f.start with
  | none => some (.error .outOfRange)
  | some s =>
    match walk fmt isyms osyms pre f (f.numStates + 1) s with
    | some (.ok ls) => some (.ok (strJoin [10] (ls ++ if finalEndline then [[]] else [])))
    | some (.error e) => some (.error e)
    | none => none

/-- pairlm_decoder_runner.cc:44-49 `Transliterate`, with the context of the line.
`include_final_endline` is true by default (pairlm_decoder.h). -/
def transliterate (fmt : κ → Str) (C : Context κ) (line : Str) (index : Nat) :
    Option (Except Err Str) :=
  match words line with
  | none => some (.error .invalidUtf8)
  | some ws =>
    match buildFst C ws with
    | .error e => some (.error e)
    | .ok f => printTransliterations fmt C.isyms C.osyms (decimal index) f true

/-- Concatenation of the results of the lines, while there are any. -/
def concatResults : List (Option (Except Err Str)) → Option (Except Err Str)
  | [] => some (.ok [])
  | some (.ok s) :: rest =>
    match concatResults rest with
    | some (.ok t) => some (.ok (s ++ t))
    | r => r
  | r :: _ => r

/-- pairlm_decoder_runner.cc:52-67 `SequentialDecoding`: the contents of the output file; `C i` is the
context of the line with index `i`. -/
def runDecoder (fmt : κ → Str) (C : Nat → Context κ) (lines : List Str) : Option (Except Err Str) :=
  concatResults ((PairLM.numbered lines).map fun p => transliterate fmt (C p.2) p.1 p.2)

/-! ## Reading -/

/-- `absl::StrSplit(str, '\t')`. -/
def splitTab : Str → List Str
  | [] => [[]]
  | c :: s =>
    if c = 9 then [] :: splitTab s
    else match splitTab s with
      | [] => [[c]]
      | p :: ps => (c :: p) :: ps

/-- `absl::StrSplit(str, '\t', absl::SkipEmpty())`. -/
def fields (s : Str) : List Str := (splitTab s).filter (fun p => !p.isEmpty)

/-- `isspace` in the C locale. -/
def isSpace (c : Nat) : Bool := c == 32 || (9 ≤ c && c ≤ 13)

/-- A decimal digit. -/
def isDigit (c : Nat) : Bool := 48 ≤ c && c ≤ 57

/-- Value of digits. -/
def digitsValue (ds : Str) : Nat := ds.foldl (fun n d => 10 * n + (d - 48)) 0

/-- `std::stoi`: white space, a sign, digits; what follows is ignored.  `none` is the exception
`std::invalid_argument` without digits and `std::out_of_range` for a number that is no `int`. -/
def stoi (s : Str) : Option Int :=
  let t := s.dropWhile isSpace
  let neg := t.head? == some 45
  let ds := (if t.head? == some 45 || t.head? == some 43 then t.drop 1 else t).takeWhile isDigit
  let v : Int := if neg then -(digitsValue ds : Int) else digitsValue ds
  if ds = [] then none
  else if v < -2 ^ 31 ∨ 2 ^ 31 ≤ v then none
  else some v

/-- A line of the extractor's input (kbest-full-string-util.cc:568-572 and 584).  Exceptions of the
conversions are `outOfRange`. -/
def parseLine (parse : Str → Option κ) (s : Str) : Except Err (Line κ) :=
  match fields s with
  | [i, p, w, y, v] =>
    match stoi i, stoi p, parse v with
    | some i, some p, some v => .ok ⟨i, p, w, (y, v)⟩
    | _, _, _ => .error .outOfRange
  | _ => .error .check

/-- `InitializeKbestExtractor(const std::vector<std::string> &)` on lines of text
(kbest-full-string-util.cc:560-593).  The lines are parsed in the same loop; here all are parsed
first, which can only change which of several failures is reported. -/
def initText (parse : Str → Option κ) (lines : List Str) :
    Except Err (List (List (List (Str × κ))) × List Str × List Int) :=
  match lines.mapM (parseLine parse) with
  | .error e => .error e
  | .ok ls => initExtractor ls

/-- `InitializeKbestExtractor(const std::string &ifile)` (kbest-full-string-util.cc:554-558) on the
contents of the file; `kMaxLine` is 51200. -/
def initFile (parse : Str → Option κ) (contents : Str) :
    Except Err (List (List (List (Str × κ))) × List Str × List Int) :=
  match FileUtil.readLines contents 51200 with
  | none => .error .outOfRange
  | some lines => initText parse lines

end Nisaba.LatticeText
