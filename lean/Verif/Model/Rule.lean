import Verif.Model.Pynini
/-!
# nisaba/scripts/utils/rule.py and rewrite.py
-/
namespace Nisaba

/-- Prefix test used by all executable matchers. -/
def isPre : Str → Str → Bool
  | [], _ => true
  | _ :: _, [] => false
  | a :: as, b :: bs => bif Nat.beq a b then isPre as bs else false

/-- Python's `a in b` on strings. -/
def isFactor (a : Str) : Str → Bool
  | [] => a.isEmpty
  | c :: b => isPre a (c :: b) || isFactor a b

/-- String equality as used for rule equality (`p1 != p2`, rule.py:120). -/
def strEq : Str → Str → Bool
  | [], [] => true
  | a :: as, b :: bs => bif Nat.beq a b then strEq as bs else false
  | _, _ => false

/-- Equality of rules (named tuples compare component-wise). -/
def ruleEq (p q : Rule) : Bool := strEq p.1 q.1 && strEq p.2 q.2

/-- rule.py:96-97 `_match_lhs_in_lhs`. -/
def matchLhsInLhs (a b : Rule) : Bool := isFactor a.1 b.1

/-- Digraph edge, rule.py:119-120. -/
def edge (p q : Rule) : Bool := !(ruleEq p q) && matchLhsInLhs p q

/-- Nodes of the digraph: the distinct rules in order of first occurrence
(`g.add_nodes_from(rules)`, rule.py:118). -/
def nodes : List Rule → List Rule
  | [] => []
  | r :: rs => r :: (nodes rs).filter (fun q => !(ruleEq r q))

/-- Nodes of out-degree 0 in the subgraph induced by `g` (rule.py:123). -/
def leaves (g : List Rule) : List Rule := g.filter fun p => !(g.any fun q => edge p q)

/-- Outcome of the splitter: rule sets, or `ValueError('Digraph should be acyclic')`.
`fuel` is not an outcome of the Python code; `partitionUnordered_ne_fuel` shows that it does not
occur. -/
inductive Split where
  | ok (sets : List (List Rule))
  | valueError
  | fuel
  deriving Repr, DecidableEq

/-- The `while` loop of rule.py:122-127; `n` bounds the number of iterations. -/
def peel : Nat → List Rule → Split
  | _, [] => .ok []
  | 0, _ :: _ => .fuel
  | n + 1, g@(_ :: _) =>
    match leaves g with
    | [] => .valueError
    | ls@(_ :: _) =>
      match peel n (g.filter fun p => !(ls.any fun q => ruleEq p q)) with
      | .ok sets => .ok (ls :: sets)
      | e => e

/-- rule.py:100-128 `partition_unordered`. -/
def partitionUnordered (rules : List Rule) : Split :=
  peel (nodes rules).length (nodes rules)

/-- rewrite.py:31-47 `ComposeFsts` on denotations, composing strictly left to right
(`Props/Compose.lean` shows that the size heuristic denotes the same relation).
The empty list gives `default`. -/
def composeRels (default : Rel) : List Rel → Rel
  | [] => default
  | [a] => a
  | a :: b :: rest => Rel.comp a (composeRels default (b :: rest))

/-- rewrite.py:50-53 `RewriteAndComposeFsts` of `string_map`s; rule.py:142-144. -/
def rewriteAndCompose (sets : List (List Rule)) (σ : Nat → Prop) : Rel :=
  composeRels (Rel.sigmaStar σ) (sets.map fun s => Rewrite (Rel.stringMap s) σ)

/-- rule.py:131-144 `fst_from_rules`; `none` is the `ValueError`. -/
def fstFromRules (rules : List Rule) (σ : Nat → Prop) : Option Rel :=
  match partitionUnordered rules with
  | .ok sets => some (rewriteAndCompose sets σ)
  | _ => none

/-- rule.py:163-175 `_fst_from_cascading_rules`: one rewrite per rule, in file order. -/
def fstFromCascadingRules (rules : List Rule) (σ : Nat → Prop) : Rel :=
  rewriteAndCompose (rules.map fun r => [r]) σ

/-! ## Executable form of a rewrite without contexts -/

/-- First rule whose left-hand side is a prefix of the text. -/
def findRule : List Rule → Str → Option Rule
  | [], _ => none
  | p :: rs, s => bif isPre p.1 s then some p else findRule rs s

/-- Left-to-right rewriting; the first argument counts characters of the current match that are
still to be skipped. -/
def scan (rs : List Rule) : Nat → Str → Str
  | _, [] => []
  | k + 1, _ :: s => scan rs k s
  | 0, c :: s =>
    match findRule rs (c :: s) with
    | some p => p.2 ++ scan rs (p.1.length - 1) s
    | none => c :: scan rs 0 s

/-- Cascade of rule sets. -/
def scanAll : List (List Rule) → Str → Str
  | [], s => s
  | st :: sts, s => scanAll sts (scan st 0 s)

/-- The rule sets of a rule file (`[]` when the file is rejected). -/
def stages (rules : List Rule) : List (List Rule) :=
  match partitionUnordered rules with
  | .ok sets => sets
  | _ => []

/-- Executable `fst_from_rules`. -/
def applyRules (rules : List Rule) (s : Str) : Str := scanAll (stages rules) s

end Nisaba

namespace Nisaba

/-! ## `ComposeFsts` with its size heuristic -/

/-- A machine: what it denotes, and its number of states. -/
structure Fst where
  den : WRel
  numStates : Nat

/-- Index of the first minimum (`num_states_prod.index(min(num_states_prod))`, rewrite.py:45),
of a non-empty list `x :: xs`: `(index, minimum)`. -/
def argMin (x : Nat) : List Nat → Nat × Nat
  | [] => (0, x)
  | y :: ys =>
    let r := argMin y ys
    if x ≤ r.2 then (0, x) else (r.1 + 1, r.2)

/-- `[a * b for a, b in zip(num_states, num_states[1:])]`, rewrite.py:43-44. -/
def adjacentProducts : List Fst → List Nat
  | a :: b :: rest => a.numStates * b.numStates :: adjacentProducts (b :: rest)
  | _ => []

/-- `fsts[:i] + [composed] + fsts[i+2:]`, rewrite.py:46-47.  `size` stands for the (unknown)
number of states of the optimized composition. -/
def mergeAt (size : Fst → Fst → Nat) : Nat → List Fst → List Fst
  | 0, a :: b :: rest => ⟨WRel.comp a.den b.den, size a b⟩ :: rest
  | i + 1, a :: rest => a :: mergeAt size i rest
  | _, l => l

/-- rewrite.py:31-47 `ComposeFsts`; the first argument bounds the recursion depth. -/
def composeFstsAux (size : Fst → Fst → Nat) : Nat → List Fst → Fst → Fst
  | _, [], default => default
  | _, [a], _ => a
  | 0, a :: _, _ => a
  | n + 1, fsts@(_ :: _ :: _), default =>
    match adjacentProducts fsts with
    | [] => default
    | p :: ps => composeFstsAux size n (mergeAt size (argMin p ps).1 fsts) default

/-- rewrite.py:31-47 `ComposeFsts`. -/
def composeFsts (size : Fst → Fst → Nat) (fsts : List Fst) (default : Fst) : Fst :=
  composeFstsAux size fsts.length fsts default

/-- nisaba/scripts/utils/func.py:20-22 `ComposeFn1`: `reduce(lambda v, fn: fn(v), fns, v)`. -/
def composeFn1 {α : Type} (fns : List (α → α)) : α → α := fun v => fns.foldl (fun v fn => fn v) v

end Nisaba

namespace Nisaba

/-! ## Executable form of a rewrite with contexts -/

/-- Decidable contexts. -/
structure BCtx where
  left : Str → Bool
  right : Str → Bool

def BCtx.toCtx (C : BCtx) : Ctx := ⟨fun s => C.left s = true, fun s => C.right s = true⟩

/-- First rule applicable between `out` and `rest`. -/
def findRuleC (C : BCtx) (out rest : Str) : List Rule → Option Rule
  | [] => none
  | p :: rs =>
    bif isPre p.1 rest && (C.left out && C.right (rest.drop p.1.length)) then some p
    else findRuleC C out rest rs

/-- Left-to-right rewriting with contexts: `out` is the text written so far, the number counts the
characters of the current match that are still to be skipped. -/
def scanC (C : BCtx) (rs : List Rule) : Str → Nat → Str → Str
  | out, _, [] => out
  | out, k + 1, _ :: s => scanC C rs out k s
  | out, 0, c :: s =>
    match findRuleC C out (c :: s) rs with
    | some p => scanC C rs (out ++ p.2) (p.1.length - 1) s
    | none => scanC C rs (out ++ [c]) 0 s

end Nisaba
