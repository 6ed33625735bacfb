import Verif.Model.LmBackoff
import Verif.Model.LatticeText
/-!
# Model of the pair symbols of the transliteration model (pairlm_decoder.cc)

Composition of transducers is modelled as composition of relations; what OpenFst does for it (filters,
matchers, sorting) is not modelled, except for the failure arcs in `Verif.Model.LmBackoff`.  Pruning and
the choice of the best strings are in `Verif.Model.PairLM`.
-/
namespace Nisaba.LmPairs
open Nisaba.LatticeText (isSpace isDigit digitsValue)

/-- A symbol table: labels and symbols. -/
abbrev Syms := List (Int × Str)

/-- `absl::StrSplit(str, ';')`. -/
def splitSemi : Str → List Str
  | [] => [[]]
  | c :: s =>
    if c = 59 then [] :: splitSemi s
    else match splitSemi s with
      | [] => [[c]]
      | p :: ps => (c :: p) :: ps

/-- `absl::StrSplit(symbol, ';', absl::SkipEmpty())`. -/
def pairFields (s : Str) : List Str := (splitSemi s).filter fun p => !p.isEmpty

/-- `absl::SimpleAtoi` to `int32_t`: white space around, a sign, digits and nothing else; `none` is
`false`. -/
def simpleAtoi (s : Str) : Option Int :=
  let t := ((s.dropWhile isSpace).reverse.dropWhile isSpace).reverse
  let neg := t.head? == some 45
  let ds := if t.head? == some 45 || t.head? == some 43 then t.drop 1 else t
  let v : Int := if neg then -(digitsValue ds : Int) else digitsValue ds
  if ds = [] || !ds.all isDigit then none
  else if v < -2 ^ 31 ∨ 2 ^ 31 ≤ v then none
  else some v

/-- pairlm_decoder.cc:210-231, the loop of `BuildUnicodeToPairTransducer`: labels of the arcs; `none` is
the failed check of the conversion. -/
def pairArcs (inputIdx : Nat) : Syms → Option (List (Int × Int))
  | [] => some []
  | (l, s) :: rest =>
    if 0 < l then
      match pairFields s with
      | [a, b] =>
        match simpleAtoi (if inputIdx = 1 then b else a), pairArcs inputIdx rest with
        | some i, some arcs => some ((i, l) :: arcs)
        | _, _ => none
      | _ => pairArcs inputIdx rest
    else pairArcs inputIdx rest

/-- pairlm_decoder.cc:201-233 `BuildUnicodeToPairTransducer`: the labels of the arcs of its only state. -/
def buildPairs (syms : Syms) (invert flip : Bool) : Option (List (Int × Int)) :=
  (pairArcs (if invert then 1 else 0) syms).map fun arcs => if flip then arcs.map Prod.swap else arcs

/-- pairlm_decoder.cc:451-460 in `InitializeTranslitModel`, for a model of pairs: the transducers to pairs
and from pairs. -/
def initPairs (syms : Syms) (invert : Bool) : Option (List (Int × Int) × List (Int × Int)) :=
  match buildPairs syms invert false, buildPairs syms (!invert) true with
  | some u, some p => some (u, p)
  | _, _ => none

/-- A label in front of a string; 0 is epsilon. -/
def push (l : Int) (s : List Int) : List Int := if l = 0 then s else l :: s

/-- The strings that the ways through a transducer with one state relate. -/
inductive OneState (arcs : List (Int × Int)) : List Int → List Int → Prop
  | nil : OneState arcs [] []
  | cons {i o xs ys} : (i, o) ∈ arcs → OneState arcs xs ys → OneState arcs (push i xs) (push o ys)

/-- pairlm_decoder.cc:235-252 `WordToFst` as an acceptor. -/
def wordLabels (word : Str) : List Int := word.foldr (fun c s => push (c : Int) s) []

/-- pairlm_decoder.cc:590-631 `GetWordTransliterations` for a model of pairs and without pruning: the
word has the output `y` at cost `c`.  `lm` says at what costs the model accepts the labels of pairs. -/
def Outputs {K : Type} (fsts : List (Int × Int) × List (Int × Int)) (lm : List Int → K → Prop) (word : Str)
    (y : List Int) (c : K) : Prop :=
  ∃ ps, OneState fsts.1 (wordLabels word) ps ∧ lm ps c ∧ OneState fsts.2 ps y

/-- The model of pairs after `MakePhiMatcherLM`, in the composition of pairlm_decoder.cc:610-619. -/
def phiLm {K : Type} [AddCommMonoid K] (fuel : Nat) (m : LmBackoff.Lm K) (ps : List Int) (c : K) : Prop :=
  ∃ costs, LmBackoff.phiScores fuel m m.start ps = some costs ∧ c ∈ costs

/-- pairlm_decoder.cc:525-544 `InitializeInputCharacterSet` for a model of pairs. -/
def coveredChars (u : List (Int × Int)) : List Int :=
  u.foldl (fun set a => if 0 < a.1 && !set.contains a.1 then set ++ [a.1] else set) []

end Nisaba.LmPairs
