import Verif.Model.Delimiters
/-!
# Model of nisaba/translit/fst/wordpiece-segmenter.cc

Strings are byte lists.  Every vector access is checked: an access outside a vector is the error
`outOfRange` (undefined behaviour in the program).
-/
namespace Nisaba.Wordpiece

/-- Ways a segmentation can fail: the internal error of lines 65-66 and undefined behaviour. -/
inductive Err
  | noSecondItem
  | outOfRange
  deriving DecidableEq

/-- Checked vector access. -/
def get {α : Type} (v : List α) (i : Nat) : Except Err α :=
  match v[i]? with
  | some x => .ok x
  | none => .error .outOfRange

/-- Rank map. -/
abbrev Ranks := List (List Nat × Nat)

/-- `flat_hash_map::find`. -/
def Ranks.find (m : Ranks) (s : List Nat) : Option Nat :=
  match m with
  | [] => none
  | (k, r) :: t => if k = s then some r else Ranks.find t s

/-- `flat_hash_map::insert`: keeps an existing entry. -/
def Ranks.insert (m : Ranks) (s : List Nat) (r : Nat) : Ranks :=
  match m.find s with
  | some _ => m
  | none => (s, r) :: m

/-- nisaba/translit/fst/wordpiece-segmenter.cc:118-129 `InitWordpieces`, the loop. -/
def initRanks (m : Ranks) (rank : Nat) : List (List Nat) → Ranks
  | [] => m
  | s :: t => initRanks (m.insert s rank) (rank + 1) t

/-- `"▁"`: nisaba/translit/fst/wordpiece-segmenter.cc:35. -/
def kWordInitPrefix : List Nat := [0xE2, 0x96, 0x81]

/-- nisaba/translit/fst/wordpiece-segmenter.h:34 and .cc:118-129: an initialised segmenter. -/
structure Segmenter where
  ranks : Ranks
  pre : List Nat

/-- Constructor followed by `InitWordpieces`. -/
def mkSegmenter (pre : List Nat) (vocab : List (List Nat)) : Segmenter where
  ranks := initRanks [] 0 vocab
  pre := if pre.isEmpty then kWordInitPrefix else pre

/-- nisaba/translit/fst/wordpiece-segmenter.cc:163-187 `ExtractWordpieceCands`, inner loop: entries
for the lengths `l`, `l + 1`, … at one position, with `cand` accumulated so far. -/
def candsFrom (ranks : Ranks) (l : Nat) (cand : List Nat) : List (List Nat) →
    List (List Nat × Nat)
  | [] => []
  | ch :: t =>
    let cand' := cand ++ ch
    let entry := match ranks.find cand' with
      | some r => (cand', r)
      | none => if l = 1 then (ch, 0) else ([], 0)
    entry :: candsFrom ranks (l + 1) cand' t

/-- nisaba/translit/fst/wordpiece-segmenter.cc:163-187 `ExtractWordpieceCands`, outer loop over the
characters of the prefixed word. -/
def extractCands (ranks : Ranks) : List (List Nat) → List (List (List Nat × Nat))
  | [] => []
  | ch :: t => (([], 0) :: candsFrom ranks 1 [] (ch :: t)) :: extractCands ranks t

/-- Best merge found so far: position, merged length, rank. -/
abbrev Best := Option (Nat × Nat × Nat)

/-- nisaba/translit/fst/wordpiece-segmenter.cc:60-77: one iteration of the inner loop. -/
def passStep (cands : List (List (List Nat × Nat))) (lens : List Nat) (m : Best) (b : Nat) :
    Except Err Best := do
  let testLen ← get lens b
  if testLen > 0 && testLen < lens.length - b then
    let second ← get lens (b + testLen)
    if second < 1 then .error .noSecondItem
    else do
      let newLen := testLen + second
      let row ← get cands b
      let cand ← get row newLen
      if !cand.1.isEmpty && (match m with | none => true | some (_, _, r) => cand.2 < r) then
        .ok (some (b, newLen, cand.2))
      else .ok m
  else .ok m

/-- nisaba/translit/fst/wordpiece-segmenter.cc:60-77: the inner loop over all positions. -/
def passLoop (cands : List (List (List Nat × Nat))) (lens : List Nat) :
    List Nat → Best → Except Err Best
  | [], m => .ok m
  | b :: bs, m => do
    let m' ← passStep cands lens m b
    passLoop cands lens bs m'

/-- nisaba/translit/fst/wordpiece-segmenter.cc:56-82: the outer loop.  The first argument bounds the
number of iterations; running out is `none`. -/
def mergeLoop (cands : List (List (List Nat × Nat))) : Nat → List Nat → Option (Except Err (List Nat))
  | 0, _ => none
  | n + 1, lens =>
    match passLoop cands lens (List.range lens.length) none with
    | .error e => some (.error e)
    | .ok none => some (.ok lens)
    | .ok (some (b, l, _)) =>
      match get lens b with
      | .error e => some (.error e)
      | .ok lb => mergeLoop cands n ((lens.set (b + lb) 0).set b l)

/-- nisaba/translit/fst/wordpiece-segmenter.cc:50-84 `CalculateBestWordpieceLengths`. -/
def bestLengths (cands : List (List (List Nat × Nat))) : Option (Except Err (List Nat)) :=
  mergeLoop cands (cands.length + 1) (List.replicate cands.length 1)

/-- nisaba/translit/fst/wordpiece-segmenter.cc:94-98: the loop over positions. -/
def collect (cands : List (List (List Nat × Nat))) (lens : List Nat) :
    List Nat → Except Err (List (List Nat))
  | [] => .ok []
  | b :: bs => do
    let l ← get lens b
    let rest ← collect cands lens bs
    if l > 0 then do
      let row ← get cands b
      let cand ← get row l
      .ok (cand.1 :: rest)
    else .ok rest

/-- nisaba/translit/fst/wordpiece-segmenter.cc:87-100 `GetWordpieceTokenization`. -/
def tokenize (cands : List (List (List Nat × Nat))) : Option (Except Err (List (List Nat))) :=
  match bestLengths cands with
  | none => none
  | some (.error e) => some (.error e)
  | some (.ok lens) => some (collect cands lens (List.range lens.length))

/-- nisaba/translit/fst/wordpiece-segmenter.cc:189-203 `GetNoWhitespaceWordpieces`. -/
def noWhitespaceWordpieces (seg : Segmenter) : List (List Nat) → Option (Except Err (List (List Nat)))
  | [] => some (.ok [])
  | w :: ws =>
    match tokenize (extractCands seg.ranks (Utf8.strSplitByChar (seg.pre ++ w))) with
    | none => none
    | some (.error e) => some (.error e)
    | some (.ok ps) =>
      match noWhitespaceWordpieces seg ws with
      | none => none
      | some (.error e) => some (.error e)
      | some (.ok qs) => some (.ok (ps ++ qs))

/-- nisaba/translit/fst/wordpiece-segmenter.cc:205-215 `GetWordpieces`.  The outer `none` is the
exception thrown on invalid UTF-8. -/
def getWordpieces (seg : Segmenter) (text : List Nat) :
    Option (Option (Except Err (List (List Nat)))) :=
  match Utf8.strSplit Utf8.whitespaceDelimiter text with
  | none => none
  | some pieces => some (noWhitespaceWordpieces seg (pieces.filter fun p => !p.isEmpty))

end Nisaba.Wordpiece
