import Verif.Model.Tables
/-!
# The weighted automata operations of OpenFst used by the C++ tools

OpenFst is not part of the repository.  `StdVectorFst`, `SymbolTable`, `Compose` and `ShortestPath`
are modelled by their documented meaning.  Weights are natural numbers or any other ordered
monoid; infinite weights and floating point rounding are left out.
-/
namespace Nisaba.Fst

/-- `fst::StdArc`: label 0 is epsilon. -/
structure Arc (κ : Type) where
  ilabel : Nat
  olabel : Nat
  weight : κ
  next : Nat
deriving Repr, DecidableEq

/-- `fst::StdVectorFst`: the arcs of every state, the start state and the final states (all final
weights used by the modelled code are `One`). -/
structure VFst (κ : Type) where
  arcs : List (List (Arc κ)) := []
  start : Option Nat := none
  finals : List Nat := []

variable {κ : Type}

/-- `AddState`: the new state and the automaton. -/
def VFst.addState (f : VFst κ) : VFst κ × Nat :=
  ({ f with arcs := f.arcs ++ [[]] }, f.arcs.length)

/-- `AddArc`. -/
def VFst.addArc (f : VFst κ) (s : Nat) (a : Arc κ) : VFst κ :=
  { f with arcs := f.arcs.modify s (· ++ [a]) }

/-- `SetStart`. -/
def VFst.setStart (f : VFst κ) (s : Nat) : VFst κ := { f with start := some s }

/-- `SetFinal(s, Weight::One())`. -/
def VFst.setFinal (f : VFst κ) (s : Nat) : VFst κ := { f with finals := s :: f.finals }

/-- `NumStates`. -/
def VFst.numStates (f : VFst κ) : Nat := f.arcs.length

/-- Symbol table: position in the list is the label. -/
abbrev SymTab := List Str

/-- `SymbolTable::Find(string)`; `none` is -1. -/
def SymTab.find (t : SymTab) (w : Str) : Option Nat := t.idxOf? w

/-- `SymbolTable::AddSymbol` of a string that is not in the table. -/
def SymTab.add (t : SymTab) (w : Str) : SymTab × Nat := (t ++ [w], t.length)

/-- A transition of an automaton: input label, output label, weight. -/
abbrev Step (κ : Type) := Nat × Nat × κ

/-- Automaton as a labelled graph, closed under composition. -/
structure Mach (σ κ : Type) where
  start : σ → Prop
  final : σ → Prop
  arc : σ → Step κ → σ → Prop

/-- The graph of a vector automaton. -/
def VFst.mach (f : VFst κ) : Mach Nat κ where
  start s := f.start = some s
  final s := s ∈ f.finals
  arc s t s' := ∃ as, f.arcs[s]? = some as ∧ ∃ a ∈ as, t = (a.ilabel, a.olabel, a.weight) ∧ s' = a.next

/-- `fst::Compose`: both machines move when the output of the first meets the input of the second,
the first moves alone on an epsilon output, the second alone on an epsilon input.  OpenFst's
composition filter keeps one of several interleavings of the same pair of paths; here all
interleavings are kept, they have the same weights and the same non-epsilon steps. -/
def Mach.compose [Add κ] {σ τ : Type} (m : Mach σ κ) (n : Mach τ κ) : Mach (σ × τ) κ where
  start s := m.start s.1 ∧ n.start s.2
  final s := m.final s.1 ∧ n.final s.2
  arc s t s' :=
    (∃ l v w, l ≠ 0 ∧ m.arc s.1 (t.1, l, v) s'.1 ∧ n.arc s.2 (l, t.2.1, w) s'.2 ∧ t.2.2 = v + w) ∨
    (t.2.1 = 0 ∧ m.arc s.1 (t.1, 0, t.2.2) s'.1 ∧ s'.2 = s.2) ∨
    (t.1 = 0 ∧ n.arc s.2 (0, t.2.1, t.2.2) s'.2 ∧ s'.1 = s.1)

/-- Paths from a state to a final state. -/
inductive Mach.Path {σ : Type} (m : Mach σ κ) : σ → List (Step κ) → Prop
  | nil {s} : m.final s → m.Path s []
  | cons {s s' t p} : m.arc s t s' → m.Path s' p → m.Path s (t :: p)

/-- Accepting paths. -/
def Mach.Accepts {σ : Type} (m : Mach σ κ) (p : List (Step κ)) : Prop :=
  ∃ s, m.start s ∧ m.Path s p

/-- Weight of a path. -/
def weight [Add κ] [Zero κ] (p : List (Step κ)) : κ := (p.map (·.2.2)).sum

/-- `fst::ShortestPath(in, out)`: `out` is one accepting path of least weight. -/
def Mach.Shortest [Add κ] [Zero κ] [LE κ] {σ : Type} (m : Mach σ κ) (p : List (Step κ)) : Prop :=
  m.Accepts p ∧ ∀ q, m.Accepts q → weight p ≤ weight q

end Nisaba.Fst
