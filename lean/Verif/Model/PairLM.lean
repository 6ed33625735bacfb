import Verif.Model.ThreadPool
import Mathlib.Algebra.Order.Field.Basic
/-!
# Model of nisaba/translit/fst/pairlm_decoder.{h,cc} without a language model

A cost `c` is represented by the positive number `exp (-c)`, an element of any ordered field `K`, so
that the log semiring is addition and multiplication.  Words are lists of code points (invalid UTF-8
ends the program in `GetUtf8Codepoint`).  The pair language model with its composition, pruning and
shortest paths (pairlm_decoder.cc:590-632, 852-854) is a parameter.  Candidate labels are the
candidates themselves: the symbol table is injective.  Hash maps are lists, so their
iteration order is fixed.  Left out: the language model (`lm_fst_`),
sampling, a candidate spelled like the epsilon symbol.
-/
namespace Nisaba.PairLM

/-- Arcs of a transliteration automaton with two states: output word and `exp (-cost)`. -/
abbrev Cands (K : Type) := List (Str × K)

variable {K : Type} [Field K] [LinearOrder K]

/-! ## Words -/

/-- pairlm_decoder.cc:760-772, the loop of `SegmentCoveredChars`: the current token and the coverage of
its last character are `tok` and `last`. -/
def segmentLoop (covered : Nat → Bool) (tok : Str) (last : Bool) : Str → List Str
  | [] => [tok]
  | c :: cs =>
    if covered c != last then tok :: segmentLoop covered [c] (covered c) cs
    else segmentLoop covered (tok ++ [c]) (covered c) cs

/-- pairlm_decoder.cc:741-775 `SegmentCoveredChars`. -/
def segmentCovered (covered : Nat → Bool) (w : Str) : List Str :=
  match w with
  | [] => []
  | c :: cs =>
    let uncovered := (w.filter fun x => !covered x).length
    if uncovered = 0 ∨ uncovered = w.length then []
    else segmentLoop covered [c] (covered c) cs

/-- Sum of the weights. -/
def total (c : Cands K) : K := (c.map (·.2)).sum

/-- Sum of the weights of one output. -/
def weightOf (c : Cands K) (y : Str) : K := ((c.filter fun p => p.1 = y).map (·.2)).sum

/-- Each string once, in the order of first occurrences. -/
def firsts : List Str → List Str
  | [] => []
  | a :: l => a :: (firsts l).filter (· ≠ a)

/-- pairlm_decoder.cc:276-287 `PushInLogSemiring` with determinization: equal outputs are added up and
the whole is divided by the total weight.  Determinization may number the arcs differently; the order
of arcs matters only for ties. -/
def push (c : Cands K) : Cands K :=
  (firsts (c.map (·.1))).map fun y => (y, weightOf c y / total c)

/-- Concatenation of automata (`Concat`, pairlm_decoder.cc:783-790). -/
def concatAll : List (Cands K) → Cands K
  | [] => [([], 1)]
  | c :: cs => c.flatMap fun p => (concatAll cs).map fun q => (p.1 ++ q.1, p.2 * q.2)

/-- Insertion into a list sorted by decreasing weight. -/
def insertDesc (p : Str × K) : Cands K → Cands K
  | [] => [p]
  | q :: l => if q.2 < p.2 then p :: q :: l else q :: insertDesc p l

def sortDesc : Cands K → Cands K
  | [] => []
  | p :: l => insertDesc p (sortDesc l)

/-- `ShortestPath(…, k_best, unique=true)` (pairlm_decoder.cc:793-795) and its paths (796-828).  A path
is a sequence of segment candidates, so two paths may spell the same output; the order among equal
weights is OpenFst's choice. -/
def concatBest (k : Nat) (cs : List (Cands K)) : Cands K := (sortDesc (concatAll cs)).take k

/-! ## The final filter -/

/-- Insertion by increasing cost, then by position: `std::sort` of `ApplyArcScoreThresh`. -/
def insertScore (p : K × Nat) : List (K × Nat) → List (K × Nat)
  | [] => [p]
  | q :: l => if q.1 < p.1 ∨ (q.1 = p.1 ∧ p.2 ≤ q.2) then p :: q :: l else q :: insertScore p l

def sortScores : List (K × Nat) → List (K × Nat)
  | [] => []
  | p :: l => insertScore p (sortScores l)

/-- pairlm_decoder.cc:311-322: which of the first `k` scores are kept; `first` says that the score is
the first one. -/
def keepLoop (minPosterior : K) : Nat → Bool → List (K × Nat) → List Nat
  | 0, _, _ => []
  | _ + 1, _, [] => []
  | k + 1, first, p :: l =>
    if first = true ∨ minPosterior ≤ 0 ∨ minPosterior ≤ p.1 then p.2 :: keepLoop minPosterior k false l
    else keepLoop minPosterior k false l

/-- pairlm_decoder.cc:289-328 `ApplyArcScoreThresh` without `costs`: positions of the arcs to keep. -/
def arcScoreThresh (k : Nat) (minPosterior : K) (arcs : Cands K) : List Nat :=
  keepLoop minPosterior k true (sortScores (arcs.zipIdx.map fun p => (p.1.2, p.2)))

/-- pairlm_decoder.cc:1110-1138 `ApplyFinalKBestFilter` at one word position. -/
def finalFilter (k : Nat) (minPosterior : K) (arcs : Cands K) : Cands K :=
  if arcs.length > k then
    let keep := arcScoreThresh k minPosterior arcs
    (arcs.zipIdx.filter fun p => keep.contains p.2).map (·.1)
  else arcs

/-! ## Initialization -/

/-- The options of `PairLMDecoderOptions` that matter here; the lines of `translit_cands_file` are
given parsed, those with invalid UTF-8 removed.  `model` says that `pairlm_file` is set. -/
structure Config (K : Type) where
  model : Bool
  lines : List (Str × Str × K)
  override : Bool
  translitWeight : Option K
  addToCache : Option Bool
  minCandPosterior : Option K

/-- Members of `PairLMDecoder`.  `mix` is `exp (-pairlm_translit_weight_)`. -/
structure Decoder (K : Type) where
  cache : Str → Option (Cands K)
  over : Str → Bool
  mix : K
  addToCache : Bool
  minPosterior : K

/-- `map[y] = cost`. -/
def setCand (c : Cands K) (y : Str) (p : K) : Cands K :=
  if c.any (fun q => q.1 = y) then c.map (fun q => if q.1 = y then (y, p) else q) else c ++ [(y, p)]

/-- `global_word_transliteration_cache_[w][y] = cost`. -/
def setCache (cache : Str → Option (Cands K)) (w y : Str) (p : K) : Str → Option (Cands K) :=
  fun v => if v = w then some (setCand ((cache w).getD []) y p) else cache v

/-- pairlm_decoder.cc:546-588 `InitializeExternalTransliterations`. -/
def initExternal (cfg : Config K) (d : Decoder K) : Decoder K :=
  if cfg.lines = [] then d
  else
    let d := cfg.lines.foldl (fun d l =>
      { d with
        cache := setCache d.cache l.1 l.2.1 l.2.2
        over := if cfg.override then fun v => if v = l.1 then true else d.over v else d.over }) d
    if cfg.model then
      match cfg.translitWeight with
      | some lam => { d with mix := lam / (1 - lam) }
      | none => { d with mix := 1 }
    else d

/-- pairlm_decoder.cc:400-433 `InitializePairLMDecoder`. -/
def initDecoder (cfg : Config K) : Decoder K :=
  let d : Decoder K := ⟨fun _ => none, fun _ => false, 1, true, 0⟩
  let d := { d with addToCache := cfg.addToCache.getD true }
  let d := initExternal cfg d
  let d := { d with minPosterior := cfg.minCandPosterior.getD 0 }
  { d with mix := 1 }

/-! ## Transliteration of words by several threads -/

/-- The constant part of the decoder: the strings that the pair language model returns for a word
(`GetWordTransliterations` and `ShortestPath`, possibly none), the covered characters, the mixture
weight and whether to cache. -/
structure Params (K : Type) where
  best : Str → Nat → Cands K
  covered : Nat → Bool
  mix : K
  addToCache : Bool

/-- `global_word_transliteration_cache_` and `mix_overrides_`, guarded by `mutex_`. -/
structure Global (K : Type) where
  cache : Str → Option (Cands K)
  over : Str → Bool

/-- `TranslitContext` (pairlm_decoder.h:67-85) of one line: `word_transliteration_cache`,
`mixed_with_precomputed` and whether the mutex is held. -/
structure Ctx (K : Type) where
  loc : Str → Option (Cands K)
  mixed : Str → Bool
  held : Bool

def Ctx.new : Ctx K := ⟨fun _ => none, fun _ => false, false⟩

/-- Where a thread is in `TransliterateWord` (pairlm_decoder.cc:905-1005). -/
inductive PC (K : Type)
  /-- line 908 -/
  | start
  /-- line 917, with the mutex of the context held and `override` read -/
  | initializing (override : Bool)
  /-- line 929 -/
  | ready
  /-- lines 942-954, with results so far and segments left -/
  | decoding (done : List (Cands K)) (rest : List Str) (segmented : Bool)
  /-- line 956 -/
  | decoded (r : Cands K)
  /-- line 967 -/
  | mixing (r : Cands K)
  /-- lines 938 and 963 -/
  | returning
  | done (r : Cands K)

/-- One word of one line with the `k_best` of its call. -/
structure Task (K : Type) where
  ctx : Nat
  word : Str
  k : Nat
  pc : PC K

structure Sys (K : Type) where
  glob : Global K
  ctxs : Nat → Ctx K
  tasks : List (Task K)

def update {α : Type} (f : Nat → α) (i : Nat) (a : α) : Nat → α := fun j => if j = i then a else f j

def Ctx.set (c : Ctx K) (w : Str) (r : Cands K) (m : Bool) : Ctx K :=
  { c with loc := fun v => if v = w then some r else c.loc v,
           mixed := fun v => if v = w then m else c.mixed v }

/-- The segments to decode (pairlm_decoder.cc:943-954): the word itself if it is not segmented. -/
def segmentsOf (P : Params K) (w : Str) : List Str × Bool :=
  let segs := segmentCovered P.covered w
  if segs.length > 1 then (segs, true) else ([w], false)

/-- Result of pairlm_decoder.cc:943-954 from the results of the segments. -/
def joinSegments (k : Nat) (segmented : Bool) (rs : List (Cands K)) : Cands K :=
  if segmented then concatBest k rs else rs.headD []

/-- pairlm_decoder.cc:991-1001: the mixture is written to the global cache. -/
def Global.put (g : Global K) (w : Str) (m : Cands K) : Global K :=
  { cache := m.foldl (fun c p => setCache c w p.1 p.2) g.cache,
    over := fun v => if v = w then true else g.over v }

/-- pairlm_decoder.cc:919-925 and 833-845 `ExtractCachedWordTransliterations`. -/
def Global.known (g : Global K) (w : Str) : Cands K :=
  match g.cache w with
  | some e => push e
  | none => []

/-- pairlm_decoder.cc:971-980: the union of the weighted results of the model with the results known
before, determinized and pushed. -/
def mixture (P : Params K) (r e : Cands K) : Cands K :=
  push (r.map (fun p => (p.1, p.2 * P.mix)) ++ e)

/-- One critical section of thread `t` in context `c`: the result. -/
inductive TStep (P : Params K) : Global K → Ctx K → Task K → Global K → Ctx K → Task K → Prop
  /-- lines 908-915: the word is new in this line. -/
  | enter {g c i w k} : c.held = false → c.loc w = none →
      TStep P g c ⟨i, w, k, .start⟩ g { c with held := true } ⟨i, w, k, .initializing (g.over w)⟩
  /-- lines 908-910 and 928: the word is known. -/
  | skip {g c i w k} : c.held = false → c.loc w ≠ none →
      TStep P g c ⟨i, w, k, .start⟩ g c ⟨i, w, k, .ready⟩
  /-- lines 917-928. -/
  | init {g c i w k o} :
      TStep P g c ⟨i, w, k, .initializing o⟩ g
        { (c.set w (g.known w) o) with held := false }
        ⟨i, w, k, .ready⟩
  /-- lines 929-934, no decoding required. -/
  | cached {g c i w k} : c.held = false → g.cache w ≠ none → c.mixed w = true →
      TStep P g c ⟨i, w, k, .ready⟩ g c ⟨i, w, k, .returning⟩
  /-- lines 929-934 and 942-946, decoding required. -/
  | decode {g c i w k} : c.held = false → ¬ (g.cache w ≠ none ∧ c.mixed w = true) →
      TStep P g c ⟨i, w, k, .ready⟩ g c
        ⟨i, w, k, .decoding [] (segmentsOf P w).1 (segmentsOf P w).2⟩
  /-- lines 850-867, `TransliterateUnsegmentedWord` without result of the model but with cached ones. -/
  | segmentCached {g c i w k ds s rest b e} : c.held = false → P.best s k = [] → g.cache s = some e →
      TStep P g c ⟨i, w, k, .decoding ds (s :: rest) b⟩ g (c.set s (push e) true)
        ⟨i, w, k, .decoding (ds ++ [push e]) rest b⟩
  /-- lines 868-877, no result at all. -/
  | segmentCopied {g c i w k ds s rest b} : P.best s k = [] → g.cache s = none →
      TStep P g c ⟨i, w, k, .decoding ds (s :: rest) b⟩ g c
        ⟨i, w, k, .decoding (ds ++ [[(s, 1)]]) rest b⟩
  /-- lines 878-902, results of the model. -/
  | segment {g c i w k ds s rest b} : P.best s k ≠ [] →
      TStep P g c ⟨i, w, k, .decoding ds (s :: rest) b⟩ g c
        ⟨i, w, k, .decoding (ds ++ [P.best s k]) rest b⟩
  /-- lines 793-830. -/
  | joined {g c i w k ds b} :
      TStep P g c ⟨i, w, k, .decoding ds [] b⟩ g c ⟨i, w, k, .decoded (joinSegments k b ds)⟩
  /-- lines 958-961. -/
  | mixed {g c i w k r} : c.held = false → c.mixed w = true →
      TStep P g c ⟨i, w, k, .decoded r⟩ g c ⟨i, w, k, .returning⟩
  /-- lines 958-961. -/
  | toMix {g c i w k r} : c.held = false → c.mixed w = false →
      TStep P g c ⟨i, w, k, .decoded r⟩ g c ⟨i, w, k, .mixing r⟩
  /-- lines 967-1004. -/
  | mix {g c i w k r e} : c.held = false → c.loc w = some e →
      TStep P g c ⟨i, w, k, .mixing r⟩ (if P.addToCache then g.put w (mixture P r e) else g)
        (c.set w (mixture P r e) true) ⟨i, w, k, .done (mixture P r e)⟩
  /-- lines 938-939 and 963-964. -/
  | return_ {g c i w k e} : c.held = false → c.loc w = some e →
      TStep P g c ⟨i, w, k, .returning⟩ g c ⟨i, w, k, .done e⟩

/-- One thread makes a step; the others wait. -/
inductive Step (P : Params K) : Sys K → Sys K → Prop
  | mk {s : Sys K} {a b : List (Task K)} {t t' : Task K} {g' : Global K} {c' : Ctx K} :
      s.tasks = a ++ t :: b → TStep P s.glob (s.ctxs t.ctx) t g' c' t' →
      Step P s ⟨g', update s.ctxs t.ctx c', a ++ t' :: b⟩

/-- Any number of steps. -/
inductive Run (P : Params K) : Sys K → Sys K → Prop
  | nil {s} : Run P s s
  | snoc {s s' s''} : Run P s s' → Step P s' s'' → Run P s s''

/-- Lines handed to the decoder: every word of line `i` is a task in context `i`.  Contexts of lines
that come later are new as well. -/
def tasksOf (k : Nat) (lines : List (List Str)) : List (Task K) :=
  (lines.zipIdx).flatMap fun p => p.1.map fun w => ⟨p.2, w, k, .start⟩

def Sys.initial (g : Global K) (tasks : List (Task K)) : Sys K := ⟨g, fun _ => Ctx.new, tasks⟩

/-! ## Lines -/

/-- pairlm_decoder.cc:1023-1033: what `BuildTransliterationFst` does with its thread pool, for `n`
words: the words are scheduled, and the pool is destroyed. -/
def buildOps (n : Nat) : List ThreadPool.Op :=
  (List.range n).map fun i => .schedule (.mk i [])

/-- pairlm_decoder.cc:1036-1058: the lattice of a line from the results of the words.  `none` for a
word is the empty automaton put there at line 1022, which has no start state; the check of line 1039
fails or reads out of range. -/
def joinLattice : List (Option (Cands K)) → Option (List (Cands K))
  | [] => some []
  | none :: _ => none
  | some c :: rest => if c = [] then none else (joinLattice rest).map (c :: ·)

/-! ## The runner, nisaba/translit/fst/pairlm_decoder_runner.cc -/

/-- The lines to decode with their index: those that do not start with `#`
(pairlm_decoder_runner.cc:58-60 and 84-95). -/
def numbered (lines : List Str) : List (Str × Nat) :=
  (lines.filter fun l => l.head? ≠ some 35).zipIdx

/-- pairlm_decoder_runner.cc:52-67 `SequentialDecoding`; `f i line` is what `Transliterate` returns. -/
def sequentialOutput (f : Nat → Str → Str) (lines : List Str) : Str :=
  (numbered lines).flatMap fun p => f p.2 p.1

/-- pairlm_decoder_runner.cc:81-96: what `ParallelDecoding` does with its thread pool before
destroying it.  A task is named by the index of its line. -/
def parallelOps (lines : List Str) : List ThreadPool.Op :=
  (numbered lines).map fun p => .schedule (.mk p.2 [])

/-- pairlm_decoder_runner.cc:87-93: what the tasks that ran put into `outputs`, in that order. -/
def parallelOutputs (f : Nat → Str → Str) (lines : List Str) (ran : List ThreadPool.Task) :
    List (Str × Nat) :=
  ran.filterMap fun t => match t with
    | .mk i _ => ((numbered lines)[i]?).map fun p => (f p.2 p.1, p.2)

/-- Insertion by index: `std::sort` of pairlm_decoder_runner.cc:100-103. -/
def insertIndex (p : Str × Nat) : List (Str × Nat) → List (Str × Nat)
  | [] => [p]
  | q :: l => if p.2 ≤ q.2 then p :: q :: l else q :: insertIndex p l

def sortIndex : List (Str × Nat) → List (Str × Nat)
  | [] => []
  | p :: l => insertIndex p (sortIndex l)

/-- pairlm_decoder_runner.cc:98-107: the file written at the end. -/
def writeSorted (outputs : List (Str × Nat)) : Str := (sortIndex outputs).flatMap (·.1)

end Nisaba.PairLM
