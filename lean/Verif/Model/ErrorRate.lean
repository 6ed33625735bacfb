import Verif.Model.Fst
import Verif.Model.Delimiters
/-!
# Model of nisaba/translit/tools/calculate_error_rate.{h,cc}

Strings are lists of bytes.  Counts held in `double` are natural numbers.  `QCHECK` failures and
out-of-range vector accesses are error values.
-/
namespace Nisaba.ErrorRate
open Nisaba Nisaba.Fst Nisaba.Utf8

/-- The string `"<epsilon>"`. -/
def epsilon : Str := [60, 101, 112, 115, 105, 108, 111, 110, 62]

/-- calculate_error_rate.h:36-43 `EditDistanceInt` (also `EditDistanceDouble`, lines 46-82, whose
fields hold the same integers). -/
structure EditDistance where
  referenceLength : Nat := 0
  substitutions : Nat := 0
  insertions : Nat := 0
  deletions : Nat := 0
deriving Repr, DecidableEq

/-- calculate_error_rate.h:42, 91 `Edits`. -/
def EditDistance.edits (e : EditDistance) : Nat := e.substitutions + e.insertions + e.deletions

/-- calculate_error_rate.h:76-82 `operator+=`. -/
def EditDistance.add (e x : EditDistance) : EditDistance :=
  { referenceLength := e.referenceLength + x.referenceLength
    substitutions := e.substitutions + x.substitutions
    insertions := e.insertions + x.insertions
    deletions := e.deletions + x.deletions }

/-- `double` quotient of two counts as in `ErrorRate` (calculate_error_rate.h:92): `0/0` is not a
number, `n/0` is infinity.  Finite quotients are kept as fractions. -/
inductive Rate where
  | nan
  | inf
  | frac (num den : Nat)
deriving Repr, DecidableEq

/-- calculate_error_rate.h:92 `ErrorRate`. -/
def EditDistance.errorRate (e : EditDistance) : Rate :=
  if e.referenceLength = 0 then (if e.edits = 0 then .nan else .inf)
  else .frac e.edits e.referenceLength

/-- `<` on doubles: false when one side is not a number. -/
def Rate.lt : Rate → Rate → Bool
  | .frac a b, .frac c d => a * d < c * b
  | .frac _ _, .inf => true
  | _, _ => false

/-- calculate_error_rate.cc:74-77 `BetterErrorValues`. -/
def betterErrorValues (x y : EditDistance) : Bool := x.errorRate.lt y.errorRate

/-- Loop of `GetStringFst` (calculate_error_rate.cc:85-93). -/
def stringLoop : List Str → VFst Nat → SymTab → Nat → VFst Nat × SymTab × Nat
  | [], f, syms, curr => (f, syms, curr)
  | tok :: toks, f, syms, curr =>
    let (syms, sym) := match syms.find tok with
      | some s => (syms, s)
      | none => syms.add tok
    let (f, next) := f.addState
    stringLoop toks (f.addArc curr ⟨sym, sym, 0, next⟩) syms next

/-- calculate_error_rate.cc:80-96 `GetStringFst`. -/
def getStringFst (toks : List Str) (syms : SymTab) : VFst Nat × SymTab :=
  let (f, s) := ({} : VFst Nat).addState
  let r := stringLoop toks (f.setStart s) syms s
  (r.1.setFinal r.2.2, r.2.1)

/-- Inner loop of `AlignStringFsts` (calculate_error_rate.cc:111-116) for `sub_sym = k, …, n - 1`. -/
def subArcs (sym : Nat) (subs : List Nat) (f : VFst Nat) : VFst Nat :=
  subs.foldl (fun f sub => f.addArc 0 ⟨sym, sub, if sym = sub then 0 else 1, 0⟩) f

/-- calculate_error_rate.cc:102-117: the one-state alignment model. -/
def alignMod (numSymbols : Nat) : VFst Nat :=
  let (f, s) := ({} : VFst Nat).addState
  let f := (f.setStart s).setFinal s
  (List.range' 1 (numSymbols - 1)).foldl (fun f sym =>
    subArcs sym (List.range' 1 (numSymbols - 1))
      ((f.addArc 0 ⟨sym, 0, 1, 0⟩).addArc 0 ⟨0, sym, 1, 0⟩)) f

/-- calculate_error_rate.cc:46-58, 98-119 `GetMinErrorAlignment`, `AlignStringFsts`: the path may be
any least-cost path of the composition. -/
def MinErrorAlignment (refFst testFst : VFst Nat) (numSymbols : Nat) (p : List (Step Nat)) : Prop :=
  ((testFst.mach.compose (alignMod numSymbols).mach).compose refFst.mach).Shortest p

/-- Loop of `CalculatePairEditDistance` (calculate_error_rate.cc:130-146) along the alignment. -/
def countEdits : List (Step Nat) → EditDistance → EditDistance
  | [], e => e
  | (i, o, _) :: p, e =>
    if i ≠ o then
      if i = 0 then countEdits p { e with deletions := e.deletions + 1 }
      else if o = 0 then countEdits p { e with insertions := e.insertions + 1 }
      else countEdits p { e with substitutions := e.substitutions + 1 }
    else countEdits p e

/-- calculate_error_rate.cc:122-159 `CalculatePairEditDistance`: the possible results (OpenFst
chooses among least-cost alignments). -/
def PairEditDistance (ref test : List Str) (e : EditDistance) : Prop :=
  let r := getStringFst ref [epsilon]
  let t := getStringFst test r.2
  ∃ p, MinErrorAlignment r.1 t.1 t.2.length p ∧
    e = countEdits p { referenceLength := r.1.numStates - 1 }

/-- Exceptions and aborts. -/
inductive Err where
  | check
  | outOfRange
  | invalidUtf8
deriving Repr, DecidableEq

/-- `absl::SkipEmpty` and `absl::StrJoin(…, sep)`. -/
def strJoin (sep : Str) : List Str → Str
  | [] => []
  | [x] => x
  | x :: y :: l => x ++ sep ++ strJoin sep (y :: l)

/-- calculate_error_rate.cc:169-180 `MaybeSplitChars`. -/
def maybeSplitChars (s : Str) (splitChars : Bool) : Except Err (List Str) :=
  match strSplit whitespaceDelimiter s with
  | none => .error .invalidUtf8
  | some ps =>
    let toks := ps.filter (fun p => !p.isEmpty)
    .ok (if splitChars then strSplitByChar (strJoin [32] toks) else toks)

/-- A candidate: symbol of the output string and its cost. -/
abbrev Cand (κ : Type) := Nat × κ

/-- calculate_error_rate.h:151-156: members of `MultiRefErrorRate`. -/
structure State (κ : Type) where
  outputSyms : SymTab
  references : List (List (Cand κ))
  testInput : List (List (Cand κ))
  totals : List EditDistance := []
  pairwiseEdits : List (List (List Nat)) := []
  isSplitChars : Bool := true

/-- calculate_error_rate.cc:393-405 `GetTokenizedString` on `test_input_` or `references_`. -/
def tokenized {κ : Type} (syms : SymTab) (splitChars : Bool) (inputs : List (List (Cand κ)))
    (idx k : Nat) : Except Err (List Str) :=
  match inputs[idx]? with
  | none => .ok []
  | some cands =>
    match cands[k]? with
    | none => .ok []
    | some (sym, _) =>
      if sym = 0 then .ok []
      else match syms[sym]? with
        | none => .error .outOfRange
        | some s => maybeSplitChars s splitChars

/-- calculate_error_rate.cc:408-414: index of the first cheapest candidate. -/
def minCostIndex {κ : Type} (lt : κ → κ → Bool) (cands : List (Cand κ)) : Nat :=
  (List.range' 1 (cands.length - 1)).foldl (fun best i =>
    match cands[i]?, cands[best]? with
    | some x, some y => if lt x.2 y.2 then i else best
    | _, _ => best) 0

/-- Loop of `CalculateMinErrorRate` (calculate_error_rate.cc:420-430) from reference `i` on, given
the edit distances of the references to the test string. -/
def bestLoop : Nat → List EditDistance → EditDistance → EditDistance
  | _, [], best => best
  | i, e :: es, best =>
    bestLoop (i + 1) es (if i = 0 || betterErrorValues e best then e else best)

section
variable {κ : Type} [Zero κ] (lt : κ → κ → Bool) (ped : List Str → List Str → EditDistance)

/-- calculate_error_rate.cc:407-432 `CalculateMinErrorRate`.  `ped` is the implementation of
`CalculatePairEditDistance`. -/
def calculateMinErrorRate (st : State κ) (idx : Nat) : Except Err (State κ) :=
  match st.testInput[idx]?, st.references[idx]? with
  | some tests, some refs =>
    match tokenized st.outputSyms st.isSplitChars st.testInput idx (minCostIndex lt tests) with
    | .error e => .error e
    | .ok test =>
      match (List.range refs.length).mapM (tokenized st.outputSyms st.isSplitChars st.references idx) with
      | .error e => .error e
      | .ok rs =>
        .ok { st with totals := st.totals ++ [bestLoop 0 (rs.map (fun r => ped r test)) {}] }
  | _, _ => .error .outOfRange

/-- calculate_error_rate.cc:434-451 `CalculatePairwiseErrors`. -/
def calculatePairwiseErrors (st : State κ) (idx : Nat) : Except Err (State κ) :=
  match st.testInput[idx]?, st.references[idx]? with
  | some tests, some refs =>
    match (List.range tests.length).mapM (tokenized st.outputSyms st.isSplitChars st.testInput idx) with
    | .error e => .error e
    | .ok ts =>
      match (List.range refs.length).mapM (tokenized st.outputSyms st.isSplitChars st.references idx) with
      | .error e => .error e
      | .ok rs =>
        .ok { st with
              pairwiseEdits := st.pairwiseEdits ++ [ts.map (fun t => rs.map (fun r => (ped r t).edits))] }
  | _, _ => .error .outOfRange

/-- calculate_error_rate.cc:453-463 `CalculateErrorRate(idx, pairwise_edits)`. -/
def calculateOne (pairwise : Bool) (st : State κ) (idx : Nat) : Except Err (State κ) :=
  match st.references[idx]? with
  | none => .error .outOfRange
  | some [] => .ok st
  | some (_ :: _) =>
    if pairwise then calculatePairwiseErrors ped st idx else calculateMinErrorRate lt ped st idx

/-- Body of the loop of `CalculateErrorRate(pairwise_edits)` (calculate_error_rate.cc:474-482). -/
def calculateStep (pairwise : Bool) (st : State κ) (idx : Nat) : Except Err (State κ) :=
  match st.testInput[idx]?, st.references[idx]? with
  | some tests, some refs =>
    if refs.isEmpty && !tests.isEmpty then .error .check
    else
      let st := if tests.isEmpty then
          { st with testInput := st.testInput.set idx [(0, 0)] } else st
      calculateOne lt ped pairwise st idx
  | _, _ => .error .outOfRange

/-- calculate_error_rate.cc:465-483 `CalculateErrorRate(pairwise_edits)`. -/
def calculateErrorRate (pairwise : Bool) (st : State κ) : Except Err (State κ) :=
  if st.references.length ≠ st.testInput.length then .error .check
  else
    let st := if pairwise then { st with pairwiseEdits := [] } else { st with totals := [] }
    (List.range st.references.length).foldlM (calculateStep lt ped pairwise) st

/-- calculate_error_rate.cc:276-282 `CalcErrorRate`, before the final division. -/
def totalErrors (st : State κ) : EditDistance := st.totals.foldl EditDistance.add {}

end

/-- calculate_error_rate.cc:222-240 `TransposeMatrix`; `none` is an out-of-range access. -/
def transposeMatrix (m : List (List Nat)) : Option (List (List Nat)) :=
  match m with
  | [] => some []
  | row :: _ => (List.range row.length).mapM (fun i => m.mapM (fun r => r[i]?))

/-- Decimal representation of a count (`absl::StrCat` of an `int`). -/
def decimal (n : Nat) : Str := (Nat.toDigits 10 n).map Char.toNat

/-- calculate_error_rate.cc:211-219 `GetBracketedVectorString` for counts. -/
def bracketed (a b : List Nat) : Str :=
  [91] ++ strJoin [44, 32] [strJoin [44, 32] (a.map decimal), strJoin [44, 32] (b.map decimal)] ++ [93]

/-- calculate_error_rate.cc:243-260 `GetDistances`. -/
def getDistances (dists : List (List Nat)) : Option Str :=
  match dists with
  | [] => some []
  | row :: _ =>
    match transposeMatrix dists with
    | none => none
    | some tr =>
      some (strJoin [44, 32]
        (dists.map (fun d => bracketed (List.replicate dists.length 0) d) ++
         tr.map (fun d => bracketed d (List.replicate row.length 0))))

/-- One line of `WritePairwiseEdits`: candidates of the test and the references and the
distances.  The probabilities are left out. -/
structure Line (κ : Type) where
  hyp : List (Cand κ)
  ref : List (Cand κ)
  dist : Str

/-- Loop of `WritePairwiseEdits` (calculate_error_rate.cc:299-336): the lines written, and the
error that stops the program if there is one.  Probabilities, lengths and punctuation are left
out. -/
def writeLoop {κ : Type} (st : State κ) : List Nat → List (Line κ) × Option Err
  | [] => ([], none)
  | idx :: rest =>
    match st.testInput[idx]?, st.references[idx]?, st.pairwiseEdits[idx]? with
    | some hyp, some ref, some d =>
      match getDistances d with
      | some s => (⟨hyp, ref, s⟩ :: (writeLoop st rest).1, (writeLoop st rest).2)
      | none => ([], some .outOfRange)
    | _, _, _ => ([], some .outOfRange)

/-- calculate_error_rate.cc:299-336 `WritePairwiseEdits`. -/
def writePairwiseEdits {κ : Type} (st : State κ) : List (Line κ) × Option Err :=
  writeLoop st (List.range st.references.length)

/-- `vector::resize(n)` when the vector is shorter than `n`. -/
def grow {α : Type} (l : List (List α)) (n : Nat) : List (List α) :=
  l ++ List.replicate (n - l.length) []

/-- Loop of `ReadInputs` (calculate_error_rate.cc:359-390) over parsed lines: example index, output
string (not empty, because empty columns are skipped) and value (already negated logarithm for
references).  Splitting at tabs and number parsing are left out. -/
def readLoop {κ : Type} : List (Nat × Str × κ) → SymTab → List (List (Cand κ)) →
    SymTab × List (List (Cand κ))
  | [], syms, inputs => (syms, inputs)
  | (idx, out, v) :: lines, syms, inputs =>
    let (syms, osym) := match syms.find out with
      | some s => (syms, s)
      | none => syms.add out
    readLoop lines syms ((grow inputs (idx + 1)).modify idx (· ++ [(osym, v)]))

/-- calculate_error_rate.cc:485-494 `CalculateErrorRate(reffile, testfile, pairwise_edits)` before
the scan: both files are read into fresh vectors. -/
def readBoth {κ : Type} (refs tests : List (Nat × Str × κ)) (splitChars : Bool) : State κ :=
  let r := readLoop refs [epsilon] []
  let t := readLoop tests r.1 []
  { outputSyms := t.1, references := r.2, testInput := t.2, isSplitChars := splitChars }

end Nisaba.ErrorRate
