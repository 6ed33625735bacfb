import Verif.Model.Grm2
/-!
# Model of nisaba/interim/grm2: weights, the best `n` rewrites, debug strings and the rewrite manager

On top of `Verif.Model.Grm2`, with the same conventions: a lattice is the finite list of its strings with
their costs, and determinization and shortest paths are modelled by their documented meaning.
-/
namespace Nisaba.Grm2

variable {K : Type} [AddMonoid K] [LinearOrder K]

/-- `fst::Determinize` over the tropical semiring (rewrite.h:118-126): each string once, with the least of
its costs. -/
def best (l : Lat K) : Lat K :=
  (distinct l).filterMap fun y => (leastCost (l.filter fun p => p.1 = y)).map fun c => (y, c)

/-- rewrite.h:118-135 `LatticeToDfa`, with the weights of the paths. -/
def dfaWeighted (optimal : Bool) (l : Lat K) : Lat K :=
  if optimal then (best l).filter fun p => leastCost l = some p.2 else best l

/-- Puts a path into its place. -/
def insertCost (p : Str × K) : Lat K → Lat K
  | [] => [p]
  | q :: l => if p.2 ≤ q.2 then p :: q :: l else q :: insertCost p l

/-- Paths by their costs. -/
def sortCost : Lat K → Lat K
  | [] => []
  | p :: l => insertCost p (sortCost l)

/-- rewrite.h:140-146 `LatticeToShortest`: `fst::ShortestPath` with `unique`; nothing if the number is
not positive.  Among strings of equal cost OpenFst may choose others, and the order of the paths is not
modelled. -/
def latticeToShortest (n : Int) (l : Lat K) : Lat K := (sortCost (best l)).take n.toNat

/-- rewrite.h:225-247, 273-293 `LatticeToStrings` into a vector: an empty lattice gives an empty vector. -/
def toVector (l : Lat K) : Res (Lat K) := .ok l

/-- rewrite.h:251-269 `LatticeToStrings` into a repeated field: an empty lattice is a failure. -/
def toRepeated (l : Lat K) : Res (Lat K) := if l.isEmpty then .fail else .ok l

/-- rewrite.h:161-169 `LatticeToTopString` with the weight, see `shortest`. -/
def topWeighted (l : Lat K) : Res (Str × K) :=
  match l.find? fun p => leastCost l = some p.2 with
  | none => .fail
  | some p => .ok p

/-- base_rule_cascade.h:292-319 `TopRewrites` with a number, to strings; the costs, which only the
variants of rewrite.h:454-464 give, are kept. -/
def cascadeBest (m : Map K) (ts : List Triple) (n : Int) (x : Str) : Res (Lat K) :=
  (cascadeLattice m ts x).bind fun l => toVector (latticeToShortest n l)

/-! ## `rewrite::RewriteManager` and the functions of rewrite.h -/

/-- rewrite_manager.h:361-371 `RewriteLattice` of a string. -/
def managerLattice (m : Map K) (t : Triple) (x : Str) : Res (Lat K) := rewriteLattice m t [(x, 0)]

/-- rewrite_manager.h:224-235 `TopRewrite`; with the weight rewrite.h:308-316. -/
def managerTop (m : Map K) (t : Triple) (x : Str) : Res (Str × K) := (managerLattice m t x).bind topWeighted

/-- rewrite_manager.h:237-249 `OneTopRewrite`. -/
def managerOneTop (m : Map K) (t : Triple) (x : Str) : Res Str :=
  (managerLattice m t x).bind fun l => latticeToOneTop ((dfaWeighted true l).map (·.1))

/-- rewrite_manager.h:251-280 `TopRewrites`; with the weights rewrite.h:414-424. -/
def managerTops (rep : Bool) (m : Map K) (t : Triple) (x : Str) : Res (Lat K) :=
  (managerLattice m t x).bind fun l => (if rep then toRepeated else toVector) (dfaWeighted true l)

/-- rewrite_manager.h:282-311 `TopRewrites` with a number; with the weights rewrite.h:454-464. -/
def managerBest (rep : Bool) (m : Map K) (t : Triple) (n : Int) (x : Str) : Res (Lat K) :=
  (managerLattice m t x).bind fun l => (if rep then toRepeated else toVector) (latticeToShortest n l)

/-- rewrite_manager.h:313-340 `Rewrites`; with the weights rewrite.h:373-383. -/
def managerAll (rep : Bool) (m : Map K) (t : Triple) (x : Str) : Res (Lat K) :=
  (managerLattice m t x).bind fun l => (if rep then toRepeated else toVector) (dfaWeighted false l)

/-- rewrite_manager.h:214-222 `SetFst`: the new map and the return value. -/
def setFst {K : Type} (m : Map K) (n : Str) (e : Entry K) : Map K × Bool :=
  match m n with
  | none => (m, false)
  | some _ => (fun k => if k = n then some e else m k, true)

/-! ## Debug strings -/

/-- `fst::LabelsToString` of OpenFst for bytes: epsilon labels are left out. -/
def labelsToBytes (labels : List Nat) : Str := (labels.filter (· ≠ 0)).map (· % 256)

/-- base_rule_cascade.h:517-532 `PrintDebugSymbol`: `none` is a grammar without generated symbols. -/
def printDebug (gensyms : Option (Nat → Str)) (label : Nat) : Str :=
  match gensyms with
  | some find => if (find label).isEmpty then [label % 256] else 91 :: find label ++ [93]
  | none => [label % 256]

/-- base_rule_cascade.h:498-515 `LabelsToDebugString`. -/
def debugString (byteMode : Bool) (gensyms : Option (Nat → Str)) (output : Str) (labels : List Nat) : Str :=
  if !byteMode then output else labels.flatMap (printDebug gensyms)

/-- base_rule_cascade.h:229-240, 321-342 and the like: an output string and its debug string, in bytes. -/
def withDebug (gensyms : Option (Nat → Str)) (labels : List Nat) : Str × Str :=
  (labelsToBytes labels, debugString true gensyms (labelsToBytes labels) labels)

end Nisaba.Grm2
