import Verif.Model.Fst
import Mathlib.Algebra.GroupWithZero.Defs
/-!
# Model of nisaba/interim/grm2/paths/paths.h

Vectors grow at the head of a list.  `none` is undefined behaviour (`pop_back` of an empty vector) or
a loop that has not ended within the given number of rounds.  `pop_labels_` is `pop`.  Weights are a monoid
with zero whose zero is `Weight::Zero()`.  The conversion of labels to strings
(paths.h:295-340) is left out.
-/
namespace Nisaba.Paths

open Fst (Arc)

/-- `fst::Fst<Arc>`: final weight and arcs of every state; the final weight of a state that is not
final is zero. -/
structure WFst (W : Type) where
  start : Option Nat
  table : List (W × List (Arc W))

variable {W : Type} [MonoidWithZero W] [DecidableEq W]

/-- `Fst::Final`. -/
def WFst.final (F : WFst W) (s : Nat) : W := (F.table[s]?.map (·.1)).getD 0

/-- The arcs an `ArcIterator` visits. -/
def WFst.arcs (F : WFst W) (s : Nat) : List (Arc W) := (F.table[s]?.map (·.2)).getD []

/-- paths.h:96-112, the fields of `PathIterator`. -/
structure It (W : Type) where
  states : List Nat := []
  ils : List Nat := []
  ols : List Nat := []
  weights : List W := []
  offsets : List Int := []
  pop : Bool := false
deriving DecidableEq

/-- `pop_back`. -/
def pop? {α : Type} : List α → Option (List α)
  | [] => none
  | _ :: l => some l

/-- paths.h:223-228 `VisitArc`. -/
def visit (a : Arc W) (it : It W) : It W :=
  { it with ils := a.ilabel :: it.ils, ols := a.olabel :: it.ols, weights := a.weight :: it.weights }

/-- paths.h:230-238 `MaybePopLabels`. -/
def maybePop (it : It W) : Option (It W) :=
  if it.pop then do
    let i ← pop? it.ils
    let o ← pop? it.ols
    some { it with ils := i, ols := o }
  else some { it with pop := true }

/-- paths.h:159-182, the first loop of `Next`: the iterator and the state to go to. -/
def back (F : WFst W) : List Nat → It W → Option (It W × Option Nat)
  | [], it => some (it, none)
  | s :: ss, it =>
    match it.offsets with
    | [] => none
    | o :: os =>
      match (F.arcs s)[(o + 1).toNat]? with
      | none => do
        let it1 ← maybePop it
        let ws ← pop? it.weights
        back F ss { it1 with states := ss, weights := ws, offsets := os }
      | some a => do
        let it1 ← maybePop it
        let ws ← pop? it.weights
        some (visit a { it1 with weights := ws, offsets := (o + 1) :: os }, some a.next)

/-- paths.h:185-215, the second loop of `Next`. -/
def forward (F : WFst W) : Nat → Nat → It W → Option (It W)
  | 0, _, _ => none
  | n + 1, s, it =>
    if F.final s = 0 then
      match F.arcs s with
      | [] => some it
      | a :: _ =>
        forward F n a.next (visit a { it with states := s :: it.states, offsets := 0 :: it.offsets })
    else
      some { it with states := s :: it.states, pop := false, weights := F.final s :: it.weights,
                     offsets := -1 :: it.offsets }

/-- paths.h:183-215: the second loop, if the first one has found an arc. -/
def advance (F : WFst W) (fuel : Nat) : Option (It W × Option Nat) → Option (It W)
  | none => none
  | some (it, none) => some it
  | some (it, some s) => forward F fuel s it

/-- paths.h:65 `Done`. -/
def It.done (it : It W) : Bool := it.states.isEmpty

/-- paths.h:147-216 `Next`. -/
def next (F : WFst W) (fuel : Nat) (it : It W) : Option (It W) :=
  if it.done then some it
  else match it.offsets with
    | [] => none
    | o :: os =>
      if o = -2 then some { it with offsets := -1 :: os }
      else advance F fuel (back F it.states it)

/-- paths.h:129-145 `Reset`. -/
def reset (F : WFst W) (fuel : Nat) (it : It W) : Option (It W) :=
  match F.start with
  | none => some { it with pop := false }
  | some s =>
    next F fuel { it with
      pop := false
      states := s :: it.states
      weights := F.final s :: it.weights
      offsets := (if F.final s = 0 then -1 else -2) :: it.offsets }

/-- paths.h:118-127, the constructor for an automaton that passes the check. -/
def init (F : WFst W) (fuel : Nat) : Option (It W) := reset F fuel {}

/-- A path as the callers see it: `ILabels()`, `OLabels()`, `Weight()`. -/
abbrev Out (W : Type) := List Nat × List Nat × W

/-- paths.h:71, 75, 79-85, the readers. -/
def It.out (it : It W) : Out W :=
  (it.ils.reverse, it.ols.reverse, it.weights.reverse.foldl (· * ·) 1)

/-- The loop `for (; !paths.Done(); paths.Next())` of rewrite.h:224, 245: what was read, and the
iterator after the loop. -/
def collect (F : WFst W) (fuel : Nat) : Nat → It W → Option (List (Out W) × It W)
  | 0, _ => none
  | n + 1, it =>
    if it.done then some ([], it)
    else do
      let it' ← next F fuel it
      let (l, e) ← collect F fuel n it'
      some (it.out :: l, e)

/-- A new iterator, read to the end. -/
def allPaths (F : WFst W) (fuel : Nat) : Option (List (Out W) × It W) := do
  collect F fuel fuel (← init F fuel)

/-- rewrite.h:172-189 `LatticeToOneTopString` for an automaton without error: `none` is a loop that
does not end, `some none` is the return value `false`. -/
def oneTop (F : WFst W) (fuel : Nat) : Option (Option (List Nat)) := do
  let it ← init F fuel
  if it.done then some none
  else
    let it' ← next F fuel it
    some (if it'.done then some it.out.2.1 else none)

end Nisaba.Paths
