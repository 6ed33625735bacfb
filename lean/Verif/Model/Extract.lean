import Verif.Model.Kbest
import Verif.Model.Softmax
/-!
# Model of the k-best extractor and of the ensemble of kbest-full-string-util.cc

Scores are real numbers in place of `double` and `float`; rounding is left out.  Reading files and
parsing numbers are left out: a line is given by its fields.
-/
namespace Nisaba.Extract
open Nisaba Nisaba.Fst
open Nisaba.ErrorRate (Err strJoin)
open Nisaba.Kbest (words)
open Nisaba.Softmax (getOutputsNorm normAndPair)

/-- Output string and score. -/
abbrev RCand := Str × ℝ

/-! ## Lattices and their best paths -/

/-- A path of a vector automaton to a final state, with the position of every arc among the arcs of
its state: two arcs that are equal are different ways to go on. -/
inductive ArcPath {κ : Type} (f : VFst κ) : Nat → List (Nat × Arc κ) → Prop
  | nil {s} : s ∈ f.finals → ArcPath f s []
  | cons {s as i a p} : f.arcs[s]? = some as → as[i]? = some a → ArcPath f a.next p →
      ArcPath f s ((i, a) :: p)

/-- Accepting paths. -/
def Accepting {κ : Type} (f : VFst κ) (p : List (Nat × Arc κ)) : Prop :=
  ∃ s, f.start = some s ∧ ArcPath f s p

/-- Weight of a path. -/
def cost (p : List (Nat × Arc ℝ)) : ℝ := (p.map (·.2.weight)).sum

/-- `fst::ShortestPath(in, out, n)`: the paths of `out` in the order of the arcs of its start state.
They are the `n` lightest accepting paths of `in`, lightest first, or all of them if there are
fewer.  For `n ≤ 0` OpenFst leaves `out` without states. -/
def NShortest (f : VFst ℝ) (n : Nat) (ps : List (List (Nat × Arc ℝ))) : Prop :=
  (∀ p ∈ ps, Accepting f p) ∧ (ps.map (fun p => p.map (·.1))).Nodup ∧ ps.length ≤ n ∧
  ps.Pairwise (fun p q => cost p ≤ cost q) ∧
  ∀ q, Accepting f q → q.map (·.1) ∉ ps.map (fun p => p.map (·.1)) →
    ps.length = n ∧ ∀ p ∈ ps, cost p ≤ cost q

/-- `SymbolTable::Find(label)`: the empty string for an unknown label. -/
def symName (syms : SymTab) (l : Nat) : Str := (syms[l]?).getD []

/-- The words of a path (kbest-full-string-util.cc:240-247): labels above 0. -/
def pathWords (syms : SymTab) (p : List (Nat × Arc ℝ)) : List Str :=
  ((p.map (·.2.ilabel)).filter (· > 0)).map (symName syms)

/-- kbest-full-string-util.cc:212-273 `GetOutputs`, with the paths found by `ShortestPath` given and
the weight `fin` of the final state.  Without a path (in particular for `kbest ≤ 0`) the automaton of
the paths has no start state, and the arcs of state -1 are read. -/
noncomputable def getOutputs (f : VFst ℝ) (fin : ℝ) (syms : SymTab) (kbest : Int)
    (ps : List (List (Nat × Arc ℝ))) : Except Err (List RCand) :=
  if f.numStates = 0 then .ok []
  else if kbest ≤ 0 ∨ ps = [] then .error .outOfRange
  else .ok (getOutputsNorm (ps.map (fun p => (strJoin [32] (pathWords syms p), cost p + fin))))

/-- Possible results of `GetOutputs`. -/
def GetOutputs (f : VFst ℝ) (fin : ℝ) (syms : SymTab) (kbest : Int) (r : Except Err (List RCand)) :
    Prop :=
  ∃ ps, NShortest f kbest.toNat ps ∧ r = getOutputs f fin syms kbest ps

/-- Inner loop of `MakeLattice` (kbest-full-string-util.cc:285-293). -/
def addWords (curr next : Nat) : List RCand → SymTab → VFst ℝ → SymTab × VFst ℝ
  | [], syms, f => (syms, f)
  | c :: cs, syms, f =>
    match syms.find c.1 with
    | some sym => addWords curr next cs syms (f.addArc curr ⟨sym, sym, c.2, next⟩)
    | none =>
      let r := syms.add c.1
      addWords curr next cs r.1 (f.addArc curr ⟨r.2, r.2, c.2, next⟩)

/-- Outer loop of `MakeLattice` (kbest-full-string-util.cc:283-295). -/
def addPositions : List (List RCand) → SymTab → VFst ℝ → Nat → SymTab × VFst ℝ × Nat
  | [], syms, f, curr => (syms, f, curr)
  | l :: ls, syms, f, curr =>
    let r := addWords curr f.addState.2 l syms f.addState.1
    addPositions ls r.1 r.2 f.addState.2

/-- kbest-full-string-util.cc:274-295 `MakeLattice`: the symbol table and the lattice. -/
def makeLattice (strArcs : List (List RCand)) (syms : SymTab) : SymTab × VFst ℝ :=
  let (f, s) := ({} : VFst ℝ).addState
  let r := addPositions strArcs syms (f.setStart s) s
  (r.1, r.2.1.setFinal r.2.2)

/-- `"<epsilon>"`. -/
def epsilonName : Str := [60, 101, 112, 115, 105, 108, 111, 110, 62]

/-- kbest-full-string-util.cc:534-541 `KbestExtractor::GetBest`: its possible results. -/
def GetBest (strArcs : List (List RCand)) (kbest : Int) (r : Except Err (List RCand)) : Prop :=
  GetOutputs (makeLattice strArcs [epsilonName]).2 0 (makeLattice strArcs [epsilonName]).1 kbest r

/-! ## Reading lattices -/

/-- A line of the input of the extractor, parsed (kbest-full-string-util.cc:568-572 and 584): index
of the text, position, input word, candidate and score. -/
structure Line (κ : Type) where
  idx : Int
  pos : Int
  input : Str
  cand : Str × κ

/-- State of `InitializeKbestExtractor` (kbest-full-string-util.cc:563-567): the three members and the
four local variables. -/
structure Reader (κ : Type) where
  arcs : List (List (List (Str × κ))) := []
  words : List Str := []
  index : List Int := []
  strArcs : List (List (Str × κ)) := []
  inputWords : List Str := []
  lastIdx : Int := -1
  lastPos : Int := -1

/-- Appends what has been read of the current text to the members (kbest-full-string-util.cc:574-576
and 589-591). -/
def Reader.flush {κ : Type} (r : Reader κ) : Reader κ :=
  { r with arcs := r.arcs ++ [r.strArcs], words := r.words ++ [strJoin [32] r.inputWords]
           index := r.index ++ [r.lastIdx] }

/-- `str_arcs[pos].push_back(...)`, once `pos + 1` is the number of positions
(kbest-full-string-util.cc:583-584). -/
def addLast {κ : Type} (strArcs : List (List (Str × κ))) (c : Str × κ) : List (List (Str × κ)) :=
  strArcs.modify (strArcs.length - 1) (· ++ [c])

/-- Body of the loop (kbest-full-string-util.cc:573-586). -/
def readerStep {κ : Type} (r : Reader κ) (l : Line κ) : Except Err (Reader κ) :=
  let r1 := if l.idx ≠ r.lastIdx ∧ r.lastIdx ≥ 0 then
      { r.flush with strArcs := [], inputWords := [] } else r
  let r2 := if l.idx ≠ r.lastIdx ∨ l.pos ≠ r.lastPos then
      { r1 with inputWords := r1.inputWords ++ [l.input], strArcs := r1.strArcs ++ [[]] } else r1
  -- the size is compared with `pos + 1` as an unsigned number
  if (r2.strArcs.length : Int) ≠ l.pos + 1 then .error .check
  -- a check of 0 against `pos = -1` passes, and `str_arcs[-1]` is read
  else if r2.strArcs.length = 0 then .error .outOfRange
  else .ok { r2 with strArcs := addLast r2.strArcs l.cand, lastIdx := l.idx, lastPos := l.pos }

/-- kbest-full-string-util.cc:560-593 `InitializeKbestExtractor`: `input_arcs_`, `input_words_` and
`input_index_`. -/
def initExtractor {κ : Type} (lines : List (Line κ)) :
    Except Err (List (List (List (Str × κ))) × List Str × List Int) :=
  if lines.isEmpty then .ok ([], [], [])
  else match lines.foldlM readerStep {} with
    | .error e => .error e
    | .ok r => .ok (r.flush.arcs, r.flush.words, r.flush.index)

/-! ## Ensembles -/

/-- The words in column `j` of the kept candidates, every word once (the arcs of `align_fst_` that
leave the `j`-th boundary, kbest-full-string-util.cc:422-441).  The program keeps them in a hash set:
their order is not fixed; here it is that of the candidates. -/
def column (kept : List (List Str × ℝ)) (j : Nat) : List Str :=
  (kept.filterMap (fun c => c.1[j]?)).reverse.dedup.reverse

/-- The cost that the unigram counts give to a word in a column: minus the logarithm of the summed
probabilities of the candidates with this word there (`CountPosSyms`,
kbest-full-string-util.cc:100-111, 446-447). -/
noncomputable def voteCost (kept : List (List Str × ℝ)) (j : Nat) (w : Str) : ℝ :=
  -Real.log ((kept.filter (fun c => decide (c.1[j]? = some w))).map (fun c => Real.exp (-c.2))).sum

/-- The columns with their costs. -/
noncomputable def columns (kept : List (List Str × ℝ)) (n : Nat) : List (List RCand) :=
  (List.range n).map (fun j => (column kept j).map (fun w => (w, voteCost kept j w)))

/-- The count of the end of the text: it is the final weight of the unigram model. -/
noncomputable def endCost (kept : List (List Str × ℝ)) : ℝ :=
  -Real.log (kept.map (fun c => Real.exp (-c.2))).sum

/-- kbest-full-string-util.cc:404-448 `BuildAlignWfst` followed by 505-508
`EnsembleFullString::GetOutputs`, for candidates that passed the checks (`Kbest.buildChecks`), given
by their words.  `align_fst_` composed with the candidates and projected gives the candidates as
sequences of arcs; the unigram counts of these sequences are the votes; composed with `align_fst_`
they weight its arcs.  The compositions are done here by hand: the result is the lattice of the
columns.  Without candidates the automaton is empty.  Left out: a word `<epsilon>`, which the symbol
table maps to label 0. -/
def EnsembleOutputs (kept : List (List Str × ℝ)) (n : Nat) (kbest : Int) (r : Except Err (List RCand)) :
    Prop :=
  if kept = [] then r = .ok []
  else GetOutputs (makeLattice (columns kept n) [epsilonName]).2 (endCost kept)
    (makeLattice (columns kept n) [epsilonName]).1 kbest r

/-- kbest-full-string-util.cc:500-508 `RunEnsemble` and `GetOutputs`: possible results. -/
def RunEnsemble (inputs : List Kbest.Cand) (inputLength kbest : Int) (r : Except Err (List RCand)) : Prop :=
  match Kbest.simpleAlign inputLength inputs with
  | .error e => r = .error e
  | .ok aligned =>
    match Kbest.buildChecks aligned with
    | .error e => r = .error e
    | .ok () =>
      match aligned.1.mapM (fun c => (words c.1).map (fun ws => (ws, ((c.2 : ℚ) : ℝ)))) with
      | none => r = .error .invalidUtf8
      | some kept => EnsembleOutputs kept ((kept.head?.map (·.1.length)).getD 0) kbest r

/-- State of `ReadInputs` (kbest-full-string-util.cc:150-177) over parsed lines: system inputs seen,
outputs with scores. -/
structure Inputs (κ : Type) where
  inputs : List Str := []
  cands : List (List (Str × κ)) := []

/-- Body of the loop of `ReadInputs` (kbest-full-string-util.cc:160-175).  `none` is the exception on
invalid UTF-8. -/
def readInput {κ : Type} (st : Inputs κ) (l : Str × Str × κ) : Option (Inputs κ) :=
  let st := if st.inputs = [] ∨ st.inputs.getLast? ≠ some l.1 then
      { inputs := st.inputs ++ [l.1], cands := st.cands ++ [[]] } else st
  match words l.2.1 with
  | none => none
  | some ws => some { st with cands := addLast st.cands (strJoin [32] ws, l.2.2) }

/-- kbest-full-string-util.cc:150-177 `ReadInputs`. -/
def readInputs {κ : Type} (lines : List (Str × Str × κ)) : Option (List (List (Str × κ))) :=
  (lines.foldlM readInput {}).map (·.cands)

/-- kbest-full-string-util.cc:114-135 `VerifyCombineEnsembleInputs`. -/
def combine {κ : Type} (systems : List (List (List (Str × κ)))) :
    Except Err (List (List (Str × κ))) :=
  match systems with
  | [] => .error .outOfRange
  | s :: ss =>
    if ss.all (fun t => t.length == s.length) then
      .ok ((List.range s.length).map (fun j => (s[j]?).getD [] ++ ss.flatMap (fun t => (t[j]?).getD [])))
    else .error .check

/-- kbest-full-string-util.cc:202-221 `ReadInputsToEnsemble`, on the lines of the files. -/
noncomputable def readEnsemble (files : List (List (Str × Str × ℝ))) : Except Err (List (List RCand)) :=
  if files.length < 2 then .error .check
  else match files.mapM readInputs with
    | none => .error .invalidUtf8
    | some systems =>
      match systems.mapM (fun s => s.mapM normAndPair) with
      | none => .error .check
      | some systems => combine systems

end Nisaba.Extract
