import Verif.Model.PairLM
import Mathlib.Algebra.BigOperators.Group.List.Basic
/-!
# Model of pairlm_decoder.cc with a language model: posterior costs of candidates

As in `Verif.Model.PairLM`, a cost `c` is the number `exp (-c)` and a candidate is its own label.  The
weight that the language model gives to a sequence of candidates, summed over its ways through
`cands_to_lm_fst` and `lm_fst_`, is the parameter `score`; 0 is a sequence that it does not accept.
(`Verif.Model.LmPieces` and `Verif.Model.LmBackoff` are about these two.)  The order of arcs after
`ArcSort` (pairlm_decoder.cc:1060) matters only for ties; they stay in the order of the words' automata.
-/
namespace Nisaba.LmPosterior
open Nisaba.PairLM

variable {K : Type} [Field K] [LinearOrder K]

/-- An arc of the lattice with its index in `unique_arc_id`. -/
structure LArc (K : Type) where
  id : Nat
  cand : Str
  weight : K

/-- pairlm_decoder.cc:1040-1056, the arcs of one word; `n` is the size of `unique_arc_id`. -/
def numberSlot (n : Nat) : Cands K → List (LArc K)
  | [] => []
  | p :: l => ⟨n, p.1, p.2⟩ :: numberSlot (n + 1) l

/-- pairlm_decoder.cc:1036-1058 with a language model: the arcs from each state to the next. -/
def numberLattice (n : Nat) : List (Cands K) → List (List (LArc K))
  | [] => []
  | s :: ss => numberSlot n s :: numberLattice (n + s.length) ss

/-- `unique_arc_id` at the end (pairlm_decoder.cc:1188, 1049); `none` is `kNoLabel`. -/
def uniqueArcId (words : List (Cands K)) : List (Option Str) := none :: words.flatten.map fun p => some p.1

/-- All ways through the lattice. -/
def paths : List (List (LArc K)) → List (List (LArc K))
  | [] => [[]]
  | s :: ss => s.flatMap fun a => (paths ss).map (a :: ·)

/-- The automaton that is composed with the language model (pairlm_decoder.cc:1195-1206): the lattice, or
with `apply_lm_at_word_level` all its arcs between two states (`RemoveContext`, 363-380). -/
def lmPaths (wordLevel : Bool) (lat : List (List (LArc K))) : List (List (LArc K)) :=
  if wordLevel then lat.flatten.map fun a => [a] else paths lat

/-- Weight of a way in the composition. -/
def pathWeight (score : List Str → K) (p : List (LArc K)) : K :=
  (p.map (·.weight)).prod * score (p.map (·.cand))

/-- pairlm_decoder.cc:1065-1108 `ComposeLatticeWithLM` and `CollectUniqueArcCosts`.  Pushing divides by the
total weight, so that counting unigrams adds up the probabilities of the ways with an index.  `tiny`
is `exp (-9999)`, for indices that are not counted.  `none` is the failed check that the composition is
not empty. -/
def collectCosts (score : List Str → K) (tiny : K) (ps : List (List (LArc K))) (size : Nat) :
    Option (List K) :=
  let total := (ps.map (pathWeight score)).sum
  if total = 0 then none
  else some ((List.range size).map fun id =>
    let c := (ps.map fun p => pathWeight score p * ((p.filter fun a => a.id == id).length : K)).sum / total
    if c = 0 then tiny else c)

/-- pairlm_decoder.cc:1152-1180 for one word, in `AssignLabelsAndCostsToTranslitLattice`: arcs not to
keep lead to a dead state and are removed by `Connect`. -/
def assignSlot (k : Nat) (minPosterior : K) (ids : List (Option Str)) (costs : List K)
    (slot : List (LArc K)) : Cands K :=
  let keep : Option (List Nat) :=
    if slot.length > k then
      some (arcScoreThresh k minPosterior (slot.map fun a => ([], (costs[a.id]?).getD 0)))
    else none
  slot.zipIdx.filterMap fun p =>
    if (match keep with | none => true | some l => l.contains p.2) then
      some ((((ids[p.1.id]?).getD none).getD []), (costs[p.1.id]?).getD 0)
    else none

/-- pairlm_decoder.cc:1185-1222 `TransliterateString` with a language model and without sampling, from
the results of the words on. -/
def withLm (wordLevel : Bool) (score : List Str → K) (tiny : K) (k : Nat) (minPosterior : K)
    (words : List (Cands K)) : Option (List (Cands K)) :=
  let lat := numberLattice 1 words
  let ids := uniqueArcId words
  match collectCosts score tiny (lmPaths wordLevel lat) ids.length with
  | none => none
  | some costs => some (lat.map (assignSlot k minPosterior ids costs))

end Nisaba.LmPosterior
