import Mathlib.Algebra.Group.Basic
/-!
# Model of the backoff language model of nisaba/translit/fst/pairlm_decoder.cc (lines 150-193, 1065-1079)

A cost is an element of a commutative additive monoid `K`; `none` is infinity, the cost of what is not
possible.  States are numbered by position.  Reading the first arc of a state without arcs is outside of
the array: such a read is `none`, as is a recursion that does not return (for any amount of `fuel`).
-/
namespace Nisaba.LmBackoff

/-- An arc of an acceptor (`StdArc` with equal labels). -/
structure Arc (K : Type) where
  label : Int
  weight : K
  next : Nat

/-- Final cost and arcs of a state. -/
structure State (K : Type) where
  final : Option K
  arcs : List (Arc K)

/-- `StdVectorFst`. -/
structure Lm (K : Type) where
  start : Nat
  states : List (State K)

variable {K : Type}

/-- The state numbered `q`; numbers outside are not used by a model that `StdVectorFst::Read` accepts. -/
def Lm.state (m : Lm K) (q : Nat) : State K := m.states.getD q ⟨none, []⟩

/-- `SetFinal`. -/
def Lm.setFinal (m : Lm K) (q : Nat) (c : Option K) : Lm K :=
  { m with states := m.states.set q { m.state q with final := c } }

/-- pairlm_decoder.cc:150-160 `GetBackoff`: `some none` is `kNoStateId` with infinite cost; `none` is the
read of the first arc of a state without arcs. -/
def getBackoff (m : Lm K) (q : Nat) : Option (Option (K × Nat)) :=
  match (m.state q).arcs with
  | [] => none
  | a :: _ => if a.label ≠ 0 then some none else some (some (a.weight, a.next))

variable [AddCommMonoid K]

/-- pairlm_decoder.cc:162-173 `GetStateFinalCost`.  Setting an infinite final cost changes nothing. -/
def finalCost : Nat → Lm K → Nat → Option (Option K × Lm K)
  | 0, _, _ => none
  | fuel + 1, m, q =>
    match (m.state q).final with
    | some c => some (some c, m)
    | none =>
      match getBackoff m q with
      | none => none
      | some none => some (none, m)
      | some (some (w, b)) =>
        match finalCost fuel m b with
        | none => none
        | some (c, m') => some (c.map (w + ·), m'.setFinal q (c.map (w + ·)))

/-- pairlm_decoder.cc:177-182, the first loop of `MakePhiMatcherLM`, over the states `qs`. -/
def fillFinals (fuel : Nat) : List Nat → Lm K → Option (Lm K)
  | [], m => some m
  | q :: qs, m =>
    if (m.state q).final.isNone && q != m.start then
      match finalCost fuel m q with
      | none => none
      | some (_, m') => fillFinals fuel qs m'
    else fillFinals fuel qs m

/-- pairlm_decoder.cc:119 `kPhiSymbol`. -/
def phi : Int := -2

omit [AddCommMonoid K] in
/-- pairlm_decoder.cc:183-191, the second loop at one state. -/
def relabel (s : State K) : Option (State K) :=
  match s.arcs with
  | [] => none
  | a :: as => if a.label = 0 then some { s with arcs := { a with label := phi } :: as } else some s

/-- Insertion by label. -/
def insertArc (a : Arc K) : List (Arc K) → List (Arc K)
  | [] => [a]
  | b :: l => if a.label ≤ b.label then a :: b :: l else b :: insertArc a l

/-- `ArcSort` by `StdILabelCompare`; arcs with equal labels keep their order. -/
def sortArcs : List (Arc K) → List (Arc K)
  | [] => []
  | a :: l => insertArc a (sortArcs l)

/-- The second loop over all states. -/
def relabelAll : List (State K) → Option (List (State K))
  | [] => some []
  | s :: ss =>
    match relabel s, relabelAll ss with
    | some s', some ss' => some ({ s' with arcs := sortArcs s'.arcs } :: ss')
    | _, _ => none

/-- pairlm_decoder.cc:175-193 `MakePhiMatcherLM`. -/
def makePhi (fuel : Nat) (m : Lm K) : Option (Lm K) :=
  match fillFinals fuel (List.range m.states.length) m with
  | none => none
  | some m' => (relabelAll m'.states).map fun ss => { m' with states := ss }

/-- OpenFst's `PhiMatcher` on the model (pairlm_decoder.cc:610-617 and 1067-1073): the arcs with the
label, or those found after the failure arc.  A failure arc from a state to itself matches any label
(`phi_loop`, the argument `true`). -/
def phiFind : Nat → Lm K → Nat → Int → Option (List (K × Nat))
  | 0, _, _, _ => none
  | fuel + 1, m, q, w =>
    let found := (m.state q).arcs.filter fun a => a.label == w
    if found.isEmpty then
      match (m.state q).arcs.find? fun a => a.label == phi with
      | none => some []
      | some e =>
        if e.next = q then some [(e.weight, q)]
        else (phiFind fuel m e.next w).map fun l => l.map fun p => (e.weight + p.1, p.2)
    else some (found.map fun a => (a.weight, a.next))

/-- The costs after each of some arcs. -/
def afterArcs (rest : Nat → Option (List K)) : List (K × Nat) → Option (List K)
  | [] => some []
  | p :: ps =>
    match rest p.2, afterArcs rest ps with
    | some a, some b => some (a.map (p.1 + ·) ++ b)
    | _, _ => none

/-- The costs at which the composition of a string with the model accepts (pairlm_decoder.cc:1065-1079):
one for each way through the model.  The final cost is that of the state; OpenFst's handling of final
costs of states that have none is left out. -/
def phiScores (fuel : Nat) (m : Lm K) (q : Nat) : List Int → Option (List K)
  | [] => some (m.state q).final.toList
  | w :: ws =>
    match phiFind fuel m q w with
    | none => none
    | some l => afterArcs (fun r => phiScores fuel m r ws) l

end Nisaba.LmBackoff
