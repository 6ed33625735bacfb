import Verif.Model.Utf8
import Mathlib.Algebra.Order.Monoid.Defs
/-!
# Model of nisaba/interim/grm2: rule definitions, rewrite managers and rule cascades

A transducer in an archive is a function from a string of labels to the finite list of its outputs with their
costs (tropical semiring); transducers with infinitely many outputs for one input, for which
determinization stops at a state limit, are left out.  Composition, projection, epsilon removal, determinization
and shortest paths of OpenFst are modelled by their documented meaning on that list.  Pushdown composition
is a parameter of the archive entry.  Label 0 is epsilon, so a string with a NUL byte is not modelled.
Log messages are left out, `LOG(FATAL)` is `fatal`.
-/
namespace Nisaba.Grm2

/-! ## Rule definitions -/

/-- Main rule, parentheses rule, assignments rule. -/
structure Triple where
  main : Str
  parens : Str := []
  assigns : Str := []
deriving DecidableEq, Repr

/-- `'$'`. -/
def dollar : Nat := 36
/-- `':'`. -/
def colon : Nat := 58

/-- `find(c, from)`. -/
def find (s : Str) (c : Nat) (start : Nat) : Option Nat :=
  ((s.drop start).idxOf? c).map (· + start)

/-- `find('$', from)`, then `find(':', from)`: rule_cascade.h:60-61, 64-67. -/
def findSep (s : Str) (start : Nat) : Option Nat :=
  match find s dollar start with
  | some p => some p
  | none => find s colon start

/-- rule_cascade.h:57-75 `RuleTriple::ParseRuleDef`, and abstract-grm-manager.h:333-349, the constructor
of `thrax::RuleTriple`. -/
def parseRuleDef (d : Str) : Triple :=
  match findSep d 0 with
  | none => { main := d }
  | some p =>
    match findSep d (p + 1) with
    | none => { main := d.take p, parens := d.drop (p + 1) }
    | some q =>
      { main := d.take p, parens := (d.drop (p + 1)).take (q - p - 1), assigns := d.drop (q + 1) }

/-! ## Parentheses -/

/-- Result of a call: `LOG(FATAL)`, the return value `false`, or `true` with an output. -/
inductive Res (α : Type)
  | fatal
  | fail
  | ok (a : α)
deriving DecidableEq, Repr

/-- Sequencing. -/
def Res.bind {α β : Type} : Res α → (α → Res β) → Res β
  | .fatal, _ => .fatal
  | .fail, _ => .fail
  | .ok a, f => f a

/-- parentheses.h:33-73 `MakeParenthesesVector` on the labels of the arcs, in the order of the states:
`seen` is `seen_labels`. -/
def parensLoop (seen : List Nat) : List (Nat × Nat) → List (Nat × Nat) → Res (List (Nat × Nat))
  | [], acc => .ok acc
  | (i, o) :: l, acc =>
    if i = 0 ∧ o = 0 then parensLoop seen l acc
    else if i = 0 then parensLoop seen l acc
    else if o = 0 then parensLoop seen l acc
    else if i ∈ seen then .fatal
    else if o ∈ seen then .fatal
    else if i = o then .fatal
    else parensLoop seen l (acc ++ [(i, o)])

/-- parentheses.h:32-74 `MakeParenthesesVector`: `seen_labels` starts empty. -/
def makeParens (arcs : List (Nat × Nat)) : Res (List (Nat × Nat)) := parensLoop [] arcs []

/-- parentheses.h:83-102: the assignment map, a later arc overwrites. -/
def assignMap : List (Nat × Nat) → (Nat → Option Nat) → Nat → Option Nat
  | [], m => m
  | (i, o) :: l, m =>
    if i = 0 ∨ o = 0 then assignMap l m
    else assignMap l fun x => if x = i then some o else m x

/-- parentheses.h:103-110: one assignment for every pair. -/
def assignLoop (m : Nat → Option Nat) : List (Nat × Nat) → Res (List Nat)
  | [] => .ok []
  | (i, _) :: l =>
    match m i with
    | none => .fatal
    | some a => (assignLoop m l).bind fun as => .ok (a :: as)

/-- parentheses.h:76-111 `MakeAssignmentsVector`. -/
def makeAssigns (arcs parens : List (Nat × Nat)) : Res (List Nat) :=
  assignLoop (assignMap arcs fun _ => none) parens

/-! ## Archives -/

/-- Outputs with costs. -/
abbrev Lat (K : Type) := List (Str × K)

/-- A transducer of an archive: composition with it, pushdown composition with it, and the labels of its arcs. -/
structure Entry (K : Type) where
  apply : Str → Lat K
  pdt : List (Nat × Nat) → Str → Lat K := fun _ => apply
  mpdt : List (Nat × Nat) → List Nat → Str → Lat K := fun _ _ => apply
  arcs : List (Nat × Nat) := []

/-- The map from rule names to transducers. -/
abbrev Map (K : Type) := Str → Option (Entry K)

/-- `"*StringFstSymbolTable"`. -/
def symbolTableKey : Str := "*StringFstSymbolTable".toList.map Char.toNat

/-- rewrite_manager.h:414-425 `AddToMap`; sorting arcs does not change the transducer. -/
def addToMap {K : Type} (m : Map K) (e : Str × Entry K) : Map K :=
  if e.1 = symbolTableKey then m else fun n => if n = e.1 then some e.2 else m n

/-- rewrite_manager.h:175-188 `RewriteManager::Load` of a readable archive. -/
def loadManager {K : Type} (far : List (Str × Entry K)) : Map K := far.foldl addToMap fun _ => none

/-- abstract-grm-manager.h:153-174 `AbstractGrmManager::LoadArchive`: the map and the return value. -/
def loadArchive {K : Type} (far : List (Str × Entry K)) : Map K × Bool :=
  (far.foldl (fun m e n => if n = e.1 then some e.2 else m n) fun _ => none, !far.isEmpty)

variable {K : Type} [AddMonoid K] [LinearOrder K]

/-- `fst::Compose` of a lattice with a transducer. -/
def compose (l : Lat K) (f : Str → Lat K) : Lat K :=
  l.flatMap fun p => (f p.1).map fun q => (q.1, p.2 + q.2)

/-- rewrite_manager.h:373-412 `RewriteLattice` up to the composition, and abstract-grm-manager.h:264-317
`AbstractGrmManager::Rewrite`: the latter also looks up the assignments without parentheses
(`always`). -/
def composeRule (always : Bool) (m : Map K) (t : Triple) (l : Lat K) : Res (Lat K) :=
  match m t.main with
  | none => .fail
  | some e =>
    if t.parens = [] then
      if always && t.assigns ≠ [] && (m t.assigns).isNone then .fail else .ok (compose l e.apply)
    else
      match m t.parens with
      | none => .fail
      | some p =>
        if t.assigns = [] then (makeParens p.arcs).bind fun ps => .ok (compose l (e.pdt ps))
        else
          match m t.assigns with
          | none => if always then .fail else (makeParens p.arcs).bind fun _ => .fail
          | some a =>
            (makeParens p.arcs).bind fun ps =>
              (makeAssigns a.arcs ps).bind fun as => .ok (compose l (e.mpdt ps as))

/-- rewrite.h:49-65 `CheckNonEmptyAndCleanup`. -/
def checkNonEmpty (l : Lat K) : Res (Lat K) := if l.isEmpty then .fail else .ok l

/-- rewrite_manager.h:373-412 with rewrite.h:73-106 `RewriteLattice`. -/
def rewriteLattice (m : Map K) (t : Triple) (l : Lat K) : Res (Lat K) :=
  (composeRule false m t l).bind checkNonEmpty

/-! ## `rewrite::RuleCascade` -/

/-- rule_cascade.h:158-181 and abstract-grm-manager.h:382-401 `ValidateRules` without the check for
an empty cascade. -/
def validate (m : Map K) (ts : List Triple) : Bool :=
  ts.all fun t => (m t.main).isSome && (t.parens = [] || (m t.parens).isSome) &&
    (t.assigns = [] || (m t.assigns).isSome)

/-- rule_cascade.h:124-129 `SetRules`: the new rules and the return value. -/
def setRules (m : Map K) (_old : List Triple) (defs : List Str) : List Triple × Bool :=
  let ts := defs.map parseRuleDef
  (ts, !ts.isEmpty && validate m ts)

/-- rule_cascade.h:141-154 `RuleCascade::Rewrite`. -/
def cascade (m : Map K) : List Triple → Lat K → Res (Lat K)
  | [], l => .ok l
  | t :: ts, l => (rewriteLattice m t l).bind (cascade m ts)

/-- base_rule_cascade.h:534-540 `RewriteLattice`. -/
def cascadeLattice (m : Map K) (ts : List Triple) (x : Str) : Res (Lat K) :=
  (cascade m ts [(x, 0)]).bind checkNonEmpty

/-- Each string once. -/
def distinct : Lat K → List Str
  | [] => []
  | p :: l => p.1 :: (distinct l).filter (· ≠ p.1)

/-- Least cost of a lattice. -/
def leastCost : Lat K → Option K
  | [] => none
  | p :: l => match leastCost l with
    | none => some p.2
    | some c => some (min p.2 c)

/-- rewrite.h:118-135 `LatticeToDfa` and the strings of its paths: all strings, or those with a path of
least cost. -/
def dfaStrings (optimal : Bool) (l : Lat K) : List Str :=
  if optimal then distinct (l.filter fun p => leastCost l = some p.2) else distinct l

/-- base_rule_cascade.h:436-443 `Rewrites`; the order of the strings is not modelled. -/
def rewrites (m : Map K) (ts : List Triple) (x : Str) : Res (List Str) :=
  (cascadeLattice m ts x).bind fun l => .ok (dfaStrings false l)

/-- base_rule_cascade.h:375-382 `TopRewrites` without a number. -/
def topRewrites (m : Map K) (ts : List Triple) (x : Str) : Res (List Str) :=
  (cascadeLattice m ts x).bind fun l => .ok (dfaStrings true l)

/-- `fst::ShortestPath`: a path of least cost; among several OpenFst may choose another one. -/
def shortest (l : Lat K) : Option Str :=
  (l.find? fun p => leastCost l = some p.2).map (·.1)

/-- base_rule_cascade.h:220-227 `TopRewrite`. -/
def topRewrite (m : Map K) (ts : List Triple) (x : Str) : Res Str :=
  (cascadeLattice m ts x).bind fun l =>
    match shortest l with
    | none => .fail
    | some y => .ok y

/-- Some state of the deterministic automaton for these strings has two arcs: two strings agree up to
a position and differ there. -/
def branches : List Str → Bool
  | ys => ys.any fun y => ys.any fun z => (List.range y.length).any fun i =>
      decide (i < z.length) && y.take i == z.take i && y[i]? != z[i]?

/-- base_rule_cascade.h:245-256 `OneTopRewrite` to an acceptor: the strings of the acceptor. -/
def oneTopAcceptor (m : Map K) (ts : List Triple) (x : Str) : Res (List Str) :=
  (cascadeLattice m ts x).bind fun l =>
    if branches (dfaStrings true l) then .fail else .ok (dfaStrings true l)

/-- rewrite.h:174-190 `LatticeToOneTopString`, see also `Paths.oneTop`. -/
def latticeToOneTop : List Str → Res Str
  | [y] => .ok y
  | _ => .fail

/-- base_rule_cascade.h:267-274 `OneTopRewrite` to a string. -/
def oneTop (m : Map K) (ts : List Triple) (x : Str) : Res Str :=
  (oneTopAcceptor m ts x).bind latticeToOneTop

/-- base_rule_cascade.h:482-494 `Matches`. -/
def matches_ (m : Map K) (ts : List Triple) (x y : Str) : Res Bool :=
  match cascadeLattice m ts x with
  | .fatal => .fatal
  | .fail => .ok false
  | .ok l => .ok (l.any fun p => p.1 = y)

/-! ## `thrax::RuleCascade` -/

/-- abstract-grm-manager.h:411-417 `InitFromDefs`: the rules are appended. -/
def initFromDefs (m : Map K) (old : List Triple) (defs : List Str) : List Triple × Bool :=
  let ts := old ++ defs.map parseRuleDef
  (ts, validate m ts)

/-- abstract-grm-manager.h:403-409 `Init`. -/
def initTriples (m : Map K) (_old : List Triple) (ts : List Triple) : List Triple × Bool :=
  (ts, validate m ts)

/-- abstract-grm-manager.h:442-455 `Rewrite`: `out` is what the caller's automaton holds. -/
def thraxCascade (m : Map K) : List Triple → Lat K → Lat K → Res (Lat K)
  | [], _, out => .ok out
  | t :: ts, l, _ => (composeRule true m t l).bind fun l' => thraxCascade m ts l' l'

/-- abstract-grm-manager.h:419-431 `RewriteBytes`: `output_fst` starts empty. -/
def rewriteBytes (m : Map K) (ts : List Triple) (x : Str) : Res Str :=
  (thraxCascade m ts [(x, 0)] []).bind fun l =>
    match shortest l with
    | none => .fail
    | some y => .ok y

/-! ## Symbol tables -/

/-- A digit of a hexadecimal number. -/
def hexDigit (d : Nat) : Nat := if d < 10 then 48 + d else 87 + d

/-- `"0x%02x"`. -/
def hex2 (c : Nat) : Str := [48, 120, hexDigit (c / 16), hexDigit (c % 16)]

/-- `"0x%04x"`. -/
def hex4 (c : Nat) : Str :=
  [48, 120, hexDigit (c / 4096), hexDigit (c / 256 % 16), hexDigit (c / 16 % 16), hexDigit (c % 16)]

/-- `"<epsilon>"`. -/
def epsilonSymbol : Str := "<epsilon>".toList.map Char.toNat

/-- symbols.cc:173-187 `GenerateByteSymbolTable`: the symbol of a label below 256. -/
def byteSymbol (c : Nat) : Str :=
  if c = 0 then epsilonSymbol else if 32 < c ∧ c < 127 then [c] else hex2 c

/-- symbols.cc:49-146 `IsUnicodeSpaceOrControl`. -/
def isSpaceOrControl (c : Nat) : Bool :=
  decide (1 ≤ c ∧ c ≤ 32) || decide (127 ≤ c ∧ c ≤ 160) || c == 5760 || c == 6158 ||
    decide (8192 ≤ c ∧ c ≤ 8202) || c == 8232 || c == 8233 || c == 8239 || c == 8287 || c == 12288

/-- symbols.cc:189-207 `GenerateUtf8SymbolTable`: the symbol of a label below 65536. -/
def utf8Symbol (c : Nat) : Str :=
  if c = 0 then epsilonSymbol else if isSpaceOrControl c then hex4 c else Utf8.encodeRaw c

end Nisaba.Grm2
