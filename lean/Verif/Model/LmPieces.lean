import Verif.Model.Tables
import Mathlib.Algebra.Group.Basic
/-!
# Model of how candidates become symbols of the language model (nisaba/translit/fst/pairlm_decoder.cc)

Words are lists of code points.  Costs are elements of a commutative additive monoid `K`.  `none` is a
failed check (`QCHECK`), which ends the program.
-/
namespace Nisaba.LmPieces

/-- Symbols of the language model: label and name. -/
abbrev Syms := List (Int × Str)

/-- `SymbolTable::Find`; `kNoSymbol` is -1. -/
def Syms.find (t : Syms) (s : Str) : Int :=
  match t.find? fun p => p.2 == s with
  | some p => p.1
  | none => -1

/-! ## The trie of word pieces -/

/-- A state of the determinized automaton: the states of the linear automata of `WordToFst`
(pairlm_decoder.cc:235-252) that it stands for, each given by the rest of its word. -/
abbrev TrieState := List Str

/-- A linear automaton reads a letter. -/
def strip (c : Nat) : Str → Option Str
  | x :: xs => if x = c then some xs else none
  | [] => none

/-- pairlm_decoder.cc:323-333 `GetNextTrieState`. -/
def next (st : TrieState) (c : Nat) : Option TrieState :=
  let l := st.filterMap (strip c)
  if l.isEmpty then none else some l

/-- The state after the letters of a word (pairlm_decoder.cc:513-522). -/
def walk (st : TrieState) : Str → Option TrieState
  | [] => some st
  | c :: cs => match next st c with
    | none => none
    | some st' => walk st' cs

/-- pairlm_decoder.cc:335-361 `GetMatchedTokens`, its loop: the letters matched so far and the length of
the longest match. -/
def matchLoop (st : TrieState) (matched : Str) (len : Nat) : Str → Str
  | [] => matched.take len
  | c :: cs => match next st c with
    | none => matched.take len
    | some st' => matchLoop st' (matched ++ [c]) (if [] ∈ st' then matched.length + 1 else len) cs

/-- pairlm_decoder.cc:335-361 `GetMatchedTokens` on the letters from the start position on. -/
def getMatched (st : TrieState) (letters : Str) : Str := matchLoop st [] 0 letters

/-- The members of the decoder that are used; `root` and `inner` are the start state of the trie and
`word_internal_cands_to_lm_start_state_`. -/
structure Trie where
  syms : Syms
  oov : Int
  pre : Str
  root : TrieState
  inner : TrieState

/-- pairlm_decoder.cc:499-523 `InitializeWordPieceTrie`.  Determinization is the subset construction. -/
def initTrie (syms : Syms) (oov : Int) (pre : Str) : Option Trie :=
  if pre.isEmpty then none
  else
    let root := (syms.filter fun p => 0 < p.1 && p.1 != oov).map (·.2)
    match walk root pre with
    | none => none
    | some inner => some ⟨syms, oov, pre, root, inner⟩

variable {K : Type} [AddCommMonoid K]

/-- pairlm_decoder.cc:642-666, the loop of `ParseCandWordPiece` on the letters from the string position
on.  `fuel` bounds the number of iterations; running out is `none`. -/
def parseLoop (T : Trie) (oovCost : K) : Nat → TrieState → Str → Str → K → List Int →
    Option (K × List Int)
  | _, _, _, [], cost, acc => some (cost, acc)
  | 0, _, _, _ :: _, _, _ => none
  | fuel + 1, st, pfx, c :: cs, cost, acc =>
    let m := getMatched st (c :: cs)
    let pfx' := if pfx.isEmpty then T.pre else pfx
    if m.isEmpty then
      if T.oov > 0 then parseLoop T oovCost fuel T.inner pfx' cs (cost + oovCost) (acc ++ [T.oov])
      else none
    else
      let l := T.syms.find (pfx ++ m)
      if l > 0 then parseLoop T oovCost fuel T.inner pfx' ((c :: cs).drop m.length) cost (acc ++ [l])
      else none

/-- pairlm_decoder.cc:634-668 `ParseCandWordPiece`. -/
def parseCand (T : Trie) (oovCost : K) (w : Str) : Option (K × List Int) :=
  parseLoop T oovCost w.length T.root [] w 0 []

/-! ## The other ways -/

/-- pairlm_decoder.cc:670-686 `SegmentCandWordPiece` on the pieces of the candidate (`GetWordpieces`). -/
def segmentCand (syms : Syms) (oov : Int) (oovCost : K) : List Str → Option (K × List Int)
  | [] => some (0, [])
  | p :: ps =>
    let l := syms.find p
    if l < 0 then (segmentCand syms oov oovCost ps).map fun r => (oovCost + r.1, oov :: r.2)
    else if l > 0 then (segmentCand syms oov oovCost ps).map fun r => (r.1, l :: r.2)
    else none

/-- pairlm_decoder.cc:700-708: a candidate as one symbol. -/
def wholeCand (syms : Syms) (oov : Int) (oovCost : K) (w : Str) : K × List Int :=
  let l := syms.find w
  if l < 0 then (oovCost, [oov]) else (0, [l])

/-! ## The transducer from candidates to symbols -/

structure Arc (K : Type) where
  src : Nat
  ilabel : Nat
  olabel : Int
  cost : K
  dst : Nat

/-- `cands_to_lm_fst`; its start state, the only final state, is 0 (pairlm_decoder.h:68-76). -/
structure Fst (K : Type) where
  n : Nat
  arcs : List (Arc K)

/-- pairlm_decoder.cc:709-724, the loop at the end of `AddToCandsToLMFst`. -/
def addLoop : List Int → Fst K → Nat → Nat → K → Fst K
  | [], f, _, _, _ => f
  | [l], f, curr, il, cost => { f with arcs := f.arcs ++ [⟨curr, il, l, cost, 0⟩] }
  | l :: l' :: ls, f, curr, il, cost =>
    addLoop (l' :: ls) ⟨f.n + 1, f.arcs ++ [⟨curr, il, l, cost, f.n⟩]⟩ f.n 0 0

/-- `cand_syms` and `cands_to_lm_fst` of a `TranslitContext`; the label of a candidate is its position. -/
structure Ctx (K : Type) where
  cands : List Str
  fst : Fst K

/-- pairlm_decoder.h:68-76. -/
def Ctx.new (epsilon : Str) : Ctx K := ⟨[epsilon], ⟨1, []⟩⟩

/-- pairlm_decoder.cc:726-737 `AddCandSymArc`, as far as it changes the context; `labels` are the costs and
symbols of a candidate (pairlm_decoder.cc:688-708). -/
def addCand (labels : Str → Option (K × List Int)) (C : Ctx K) (w : Str) : Option (Ctx K) :=
  if w ∈ C.cands then some C
  else match labels w with
    | none => none
    | some (cost, ls) => some ⟨C.cands ++ [w], addLoop ls C.fst 0 C.cands.length cost⟩

/-- Any number of calls. -/
def addCands (labels : Str → Option (K × List Int)) : List Str → Ctx K → Option (Ctx K)
  | [], C => some C
  | w :: ws, C => match addCand labels C w with
    | none => none
    | some C' => addCands labels ws C'

end Nisaba.LmPieces
