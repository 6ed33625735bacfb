import Verif.Model.ErrorRate
/-!
# Model of nisaba/translit/tools/kbest-full-string-util.cc

Scores (`double`) are rational numbers; rounding is left out.  File reading and number parsing are
left out.
-/
namespace Nisaba.Kbest
open Nisaba Nisaba.Fst Nisaba.Utf8
open Nisaba.ErrorRate (Err strJoin)

/-- Loop of `MostFreqValue` (kbest-full-string-util.cc:76-85): `prev` is `input_vec[i - 1]`. -/
def mfLoop : Option Int → Nat → Nat → Int → List Int → Nat × Nat × Int
  | _, curr, mx, most, [] => (curr, mx, most)
  | none, curr, mx, most, x :: xs => mfLoop (some x) (curr + 1) mx most xs
  | some p, curr, mx, most, x :: xs =>
    if x ≠ p then
      if curr ≥ mx then mfLoop (some x) 1 curr p xs
      else mfLoop (some x) 1 mx most xs
    else mfLoop (some x) (curr + 1) mx most xs

/-- kbest-full-string-util.cc:68-90 `MostFreqValue`.  `none` is `back()` of an empty vector. -/
def mostFreqValue (input : List Int) : Option Int :=
  let v := input.mergeSort (fun a b => decide (a ≤ b))
  let r := mfLoop none 0 0 (-1) v
  if r.2.2 < 0 ∨ r.1 ≥ r.2.1 then v.getLast? else some r.2.2

/-- Candidate: output string and score. -/
abbrev Cand := Str × Rat

/-- `absl::StrSplit(str, Utf8WhitespaceDelimiter(), SkipEmpty())`. -/
def words (s : Str) : Option (List Str) :=
  (strSplit whitespaceDelimiter s).map (·.filter (fun p => !p.isEmpty))

/-- kbest-full-string-util.cc:93-97 `GetWordCount`. -/
def getWordCount (s : Str) : Option Int := (words s).map (fun l => (l.length : Int))

/-- kbest-full-string-util.cc:450-464 `PruneByInputLength` on `input_lists_` and `word_counts_`. -/
def pruneByInputLength (inputLength : Int) (inputs : List Cand) (counts : List Int) :
    Option (List Cand × List Int) :=
  match (if inputLength > 0 then some inputLength else mostFreqValue counts) with
  | none => none
  | some target =>
    let kept := (inputs.zip counts).filter (fun p => p.2 == target)
    some (kept.map (·.1), kept.map (·.2))

/-- Loop of `SimpleAlign` (kbest-full-string-util.cc:484-497): the boundary states of every
candidate; `next` is the number of states of `align_fst_` so far and `base` the states of the first
candidate with the first word count. -/
def alignLoop (first : Int) : Option (List Int) → Nat → List Int → List (List Int)
  | _, _, [] => []
  | base, next, c :: cs =>
    if c = first then
      match base with
      | none =>
        let st := (List.range' next (c.toNat - 1)).map Int.ofNat
        st :: alignLoop first (some st) (next + (c.toNat - 1)) cs
      | some b => b :: alignLoop first base next cs
    else if c > 1 then List.replicate (c.toNat - 1) (-1) :: alignLoop first base next cs
    else [] :: alignLoop first base next cs

/-- kbest-full-string-util.cc:466-498 `SimpleAlign`: the kept candidates and their boundary states.
The start state of `align_fst_` is state 0. -/
def simpleAlign (inputLength : Int) (inputs : List Cand) : Except Err (List Cand × List (List Int)) :=
  match inputs with
  | [] => .ok ([], [])
  | _ :: _ =>
    match inputs.mapM (fun c => getWordCount c.1) with
    | none => .error .invalidUtf8
    | some counts =>
      let allSame := counts.all (fun c => some c == counts.head?)
      match (if allSame then some (inputs, counts) else pruneByInputLength inputLength inputs counts) with
      | none => .error .outOfRange
      | some (inputs, counts) =>
        match counts with
        | [] => .ok (inputs, [])
        | c :: cs => .ok (inputs, alignLoop c none 1 (c :: cs))

/-- Checks of `BuildAlignWfst` (kbest-full-string-util.cc:410-427): one boundary fewer than words,
and no missing boundary state. -/
def buildChecks (aligned : List Cand × List (List Int)) : Except Err Unit :=
  (aligned.1.zip aligned.2).foldlM (fun _ p =>
    match words p.1.1 with
    | none => .error .invalidUtf8
    | some seq =>
      if p.2.length + 1 ≠ seq.length then .error .check
      else if p.2.all (fun s => decide (s ≥ 0)) then .ok () else .error .check) ()

/-- kbest-full-string-util.cc:298-310 `WhitespaceNorm`. -/
def whitespaceNorm (l : List Cand) : Except Err (List Cand) :=
  l.mapM (fun c => match words c.1 with
    | none => .error .invalidUtf8
    | some ws => .ok (strJoin [32] ws, c.2))

/-- Inner loop of `RejoinList` (kbest-full-string-util.cc:361-364) from candidate `j` on. -/
def addCands (curr next : Nat) : Nat → List Cand → VFst Rat → VFst Rat
  | _, [], f => f
  | j, c :: cs, f => addCands curr next (j + 1) cs (f.addArc curr ⟨j + 1, j + 1, c.2, next⟩)

/-- Outer loop of `RejoinList` (kbest-full-string-util.cc:359-366). -/
def addLists : List (List Cand) → VFst Rat → Nat → VFst Rat × Nat
  | [], f, curr => (f, curr)
  | l :: ls, f, curr => addLists ls (addCands curr f.addState.2 0 l f.addState.1) f.addState.2

/-- kbest-full-string-util.cc:356-367: the lattice of a list of candidate lists. -/
def rejoinFst (lists : List (List Cand)) : VFst Rat :=
  let (f, s) := ({} : VFst Rat).addState
  let r := addLists lists (f.setStart s) s
  r.1.setFinal r.2

/-- `fst::ShortestPath(in, out, n)`: the paths of `out` in the order of the arcs of its start state.
They are the `n` lightest accepting paths of `in`, lightest first, or all of them if there are
fewer.  For `n ≤ 0` OpenFst leaves `out` without states. -/
def NShortest {σ : Type} (m : Mach σ Rat) (n : Nat) (ps : List (List (Step Rat))) : Prop :=
  (∀ p ∈ ps, m.Accepts p) ∧ ps.Nodup ∧ ps.length ≤ n ∧
  ps.Pairwise (fun p q => weight p ≤ weight q) ∧
  ∀ q, m.Accepts q → q ∉ ps → ps.length = n ∧ ∀ p ∈ ps, weight p ≤ weight q

/-- kbest-full-string-util.cc:313-346 `GatherBestCands`: the labels of the paths, epsilons skipped. -/
def gatherBestCands (ps : List (List (Step Rat))) : List (List Nat) :=
  ps.map (fun p => (p.map (·.1)).filter (· > 0))

/-- Loop of `RejoinList` over one path (kbest-full-string-util.cc:376-381). -/
def readPath : List (List Cand) → List Nat → List Str → Rat → Except Err (List Str × Rat)
  | l :: ls, j :: js, strs, score =>
    match l[j - 1]? with
    | none => .error .outOfRange
    | some c => readPath ls js (strs ++ [c.1]) (score + c.2)
  | _, _, strs, score => .ok (strs, score)

/-- kbest-full-string-util.cc:349-385 `RejoinList`, with the paths found by `ShortestPath` given.
A value of `kbest` that is not positive gives an automaton without start state, on which
`GatherBestCands` reads out of range; so does a lattice without paths. -/
def rejoinList (lists : List (List Cand)) (kbest : Int) (ps : List (List (Step Rat))) :
    Except Err (List Cand) :=
  match lists with
  | [] => .error .check
  | [l] => .ok l
  | _ :: _ :: _ =>
    if kbest ≤ 0 || ps.isEmpty then .error .outOfRange
    else
      (gatherBestCands ps).mapM (fun best =>
        if best.length ≠ lists.length then .error .check
        else match readPath lists best [] 0 with
          | .error e => .error e
          | .ok (strs, score) => .ok (strJoin [32] strs, score))

/-- kbest-full-string-util.cc:349-385 and 676-680 `GetRejoinedList`: its possible results. -/
def RejoinedList (lists : List (List Cand)) (kbest : Int) (r : Except Err (List Cand)) : Prop :=
  ∃ ps, NShortest (rejoinFst lists).mach kbest.toNat ps ∧
    r = match rejoinList lists kbest ps with
      | .error e => .error e
      | .ok l => whitespaceNorm l

/-- Loop of `InitializeKbestRejoiner` (kbest-full-string-util.cc:649-669) over parsed lines: state is
`kbest_lists_`, `curr_list`, `last_input`, `output_idx` and `max_kbest`.  `curr_list` is kept as its
initial lists and its last list. -/
structure Rejoiner where
  done : List (List (List Cand)) := []
  init : List (List Cand) := []
  last : List Cand := []
  lastInput : Str := []
  outputIdx : Nat := 0
  maxKbest : Nat := 0

/-- Body of the loop. -/
def rejoinerStep (outputIndices : List Nat) (st : Rejoiner) (line : Str × Str × Rat) :
    Except Err Rejoiner :=
  let (input, out, score) := line
  if !st.lastInput.isEmpty && input != st.lastInput then
    -- `output_indices_.size() - 1` wraps around when the vector is empty
    if !outputIndices.isEmpty && !(decide (st.outputIdx < outputIndices.length - 1)) then .error .check
    else match outputIndices[st.outputIdx]?, outputIndices[st.outputIdx + 1]? with
      | some a, some b =>
        if a ≠ b then
          .ok { done := st.done ++ [st.init ++ [st.last]]
                init := []
                last := [(out, score)]
                lastInput := input
                outputIdx := st.outputIdx + 1
                maxKbest := ((st.init ++ [st.last]).map List.length).foldl
                  (fun m n => if n > m then n else m) st.maxKbest }
        else
          .ok { st with init := st.init ++ [st.last], last := [(out, score)], lastInput := input
                        outputIdx := st.outputIdx + 1 }
      | _, _ => .error .outOfRange
  else .ok { st with last := st.last ++ [(out, score)], lastInput := input }

/-- kbest-full-string-util.cc:635-674 `InitializeKbestRejoiner`: `kbest_lists_` and `kbest_`. -/
def initRejoiner (lines : List (Str × Str × Rat)) (outputIndices : List Nat) (kbest : Int) :
    Except Err (List (List (List Cand)) × Int) :=
  if !(outputIndices.zip (outputIndices.drop 1)).all (fun p => decide (p.1 ≤ p.2 ∧ p.2 ≤ p.1 + 1)) then
    .error .check
  else if lines.isEmpty then .ok ([], if kbest > 0 then kbest else 0)
  else match lines.foldlM (rejoinerStep outputIndices) {} with
    | .error e => .error e
    | .ok st =>
      let lists := st.done ++ [st.init ++ [st.last]]
      match outputIndices.getLast? with
      | none => .error .outOfRange
      | some b =>
        if lists.length ≠ b + 1 then .error .check
        else .ok (lists, if kbest > 0 then kbest else (st.maxKbest : Int))

end Nisaba.Kbest
