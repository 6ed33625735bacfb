import Verif.Lemmas.ExtractRead
import Verif.Props.Kbest
/-!
# C83–C86: extracting k-best texts from lattices, ensembles of systems
-/
namespace Nisaba.Props
open Nisaba Nisaba.Extract Nisaba.Softmax
open Nisaba.ErrorRate (Err strJoin)
open Nisaba.Kbest (words)

/-! ## C83: reading lattices -/

/-- C83: lines with non-negative indices are accepted exactly when they are the lines of a sequence of
texts, neighbouring texts with different indices, every text with its positions in order from 0 and
at least one line for every position.  The extractor then holds these texts: their candidates at
every position in the order of the lines, the input words joined by spaces, and the indices. -/
theorem C83_read {κ : Type} (lines : List (Line κ)) (hpos : ∀ l ∈ lines, 0 ≤ l.idx)
    (r : List (List (List (Str × κ))) × List Str × List Int) :
    initExtractor lines = .ok r ↔
      ∃ ts : List (Source κ), (∀ t ∈ ts, t.Ok) ∧ Distinct ts ∧ lines = ts.flatMap Source.lines ∧
        r = (ts.map Source.cands, ts.map (fun t => strJoin [32] t.inputs), ts.map Source.idx) := by
  have run : ∀ ss t, (∀ s ∈ ss ++ [t], s.Ok) → Distinct (ss ++ [t]) →
      initExtractor ((ss ++ [t]).flatMap Source.lines) = .ok
        ((ss ++ [t]).map (Source.cands (κ := κ)), (ss ++ [t]).map (fun t => strJoin [32] t.inputs),
          (ss ++ [t]).map Source.idx) := by
    intro ss t hok hd
    have hne : ((ss ++ [t]).flatMap Source.lines).isEmpty = false := by
      obtain ⟨_, h2, h3⟩ := hok t (by simp)
      obtain ⟨idx, ps⟩ := t
      match ps, h2, h3 with
      | [] :: _, _, h3 => exact absurd rfl (h3 [] (by simp))
      | (x :: ls) :: ps, _, _ => simp [Source.lines, linesFrom]
    unfold initExtractor
    rw [hne, fold_texts ss t hok hd]
    simp [After, Reader.flush]
  constructor
  · intro h
    by_cases hl : lines = []
    · subst hl
      refine ⟨[], by simp, by simp [Distinct], rfl, ?_⟩
      simpa [initExtractor, eq_comm] using h
    · have hne : lines.isEmpty = false := by cases lines with
        | nil => exact absurd rfl hl
        | cons => rfl
      have h' := h
      unfold initExtractor at h
      rw [hne] at h
      cases hf : lines.foldlM readerStep {} with
      | error e => rw [hf] at h; cases h
      | ok r0 =>
        obtain ⟨ss, t, h1, h2, h3⟩ := fold_inv lines hl hpos r0 hf
        refine ⟨ss ++ [t], h1, h2, h3.symm, ?_⟩
        rw [← h3, run ss t h1 h2] at h'
        exact (Except.ok.inj h').symm
  · rintro ⟨ts, h1, h2, rfl, rfl⟩
    cases ts using List.reverseRecOn with
    | nil => rfl
    | append_singleton ss t => exact run ss t h1 h2

/-- Two texts; the first has two positions, the first of them with two candidates. -/
example : initExtractor [⟨0, 0, [97], ([98], 1)⟩, ⟨0, 0, [97], ([99], 2)⟩, ⟨0, 1, [100], ([101], 3)⟩,
      ⟨7, 0, [102], (([103], 4) : Str × ℚ)⟩] =
    .ok ([[[([98], 1), ([99], 2)], [([101], 3)]], [[([103], 4)]]], [[97, 32, 100], [102]], [0, 7]) := by
  rfl

/-- Why indices have to be non-negative: a text with index -1 is not closed when the index changes,
its position 0 becomes the first position of the next text. -/
theorem C83_negative_merged :
    initExtractor [⟨-1, 0, [97], ([98], 1)⟩, ⟨0, 1, [100], (([101], 3) : Str × ℚ)⟩] =
      .ok ([[[([98], 1)], [([101], 3)]]], [[97, 32, 100]], [0]) := by
  rfl

/-! ## C84: the best texts of a lattice -/

/-- `out` are the normalised costs of `costs`: shifted by one amount, with exponentials of sum 1. -/
def Normalised (costs out : List ℝ) : Prop :=
  ∃ tot, out = costs.map (· - tot) ∧ (out.map (fun s => Real.exp (-s))).sum = 1

theorem norm_spec {α : Type} (l : List (α × ℝ)) (h : l ≠ []) :
    (getOutputsNorm l).map (·.1) = l.map (·.1) ∧ Normalised (l.map (·.2)) ((getOutputsNorm l).map (·.2)) := by
  obtain ⟨tot, h1, h2⟩ := C52_outputs l h
  constructor
  · rw [h1, List.map_map]; rfl
  · refine ⟨tot, by rw [h1, List.map_map, List.map_map]; rfl, ?_⟩
    have := h2.sum
    rwa [List.map_map]

theorem norm_unique {costs a b : List ℝ} (ha : Normalised costs a) (hb : Normalised costs b)
    (hne : costs ≠ []) : a = b := by
  obtain ⟨t, rfl, h1⟩ := ha
  obtain ⟨u, rfl, h2⟩ := hb
  have key : ∀ t : ℝ, ((costs.map (· - t)).map (fun s => Real.exp (-s))).sum = expSum costs * Real.exp t := by
    intro t
    clear h1 h2 hne
    induction costs with
    | nil => simp [expSum]
    | cons c cs ih =>
      simp only [List.map_cons, List.sum_cons, expSum] at ih ⊢
      rw [ih, neg_sub, sub_eq_add_neg, Real.exp_add]
      ring
  rw [key] at h1 h2
  have hp := expSum_pos hne
  have : Real.exp t = Real.exp u := by
    have : expSum costs * Real.exp t = expSum costs * Real.exp u := by rw [h1, h2]
    exact mul_left_cancel₀ hp.ne' this
  rw [Real.exp_injective this]

theorem best_ne_nil {ls : List (List RCand)} {k : Nat} {best : List (List Nat × List RCand)}
    (h : BestPicks ls k best) (hne : ∀ l ∈ ls, l ≠ []) (hk : 0 < k) : best ≠ [] := by
  rintro rfl
  obtain ⟨js, cs, hc⟩ := exists_pick hne
  have := (h.least js cs hc (by simp)).1
  simp at this
  omega

/-- C84, for words other than `<epsilon>`: when every position has candidates and `k` is positive, the
possible results are the `k` combinations of least summed cost (one candidate for every position) in
order of cost, or all of them if there are fewer, each spelled by its words separated by single
spaces; the costs are normalised, so that the scores are negative logarithms of a probability
distribution on the list.  Missing: a word `<epsilon>`, see `C84_epsilon_violated`. -/
theorem C84_best_partial (ls : List (List RCand)) (kbest : Int) (hk : 0 < kbest)
    (hne : ∀ l ∈ ls, l ≠ []) (heps : ∀ l ∈ ls, ∀ c ∈ l, c.1 ≠ epsilonName)
    (r : Except Err (List RCand)) :
    GetBest ls kbest r ↔ ∃ best out, BestPicks ls kbest.toNat best ∧ r = .ok out ∧
      out.map (·.1) = best.map (fun b => strJoin [32] (b.2.map (·.1))) ∧
      Normalised (best.map (fun b => sumCost b.2)) (out.map (·.2)) := by
  have hspell : ∀ best, BestPicks ls kbest.toNat best → ∀ b ∈ best,
      spell b.2 = strJoin [32] (b.2.map (·.1)) := by
    intro best hb b hbm
    unfold spell
    rw [List.filter_eq_self.2]
    intro w hw
    obtain ⟨c, hc, rfl⟩ := List.mem_map.1 hw
    obtain ⟨l, hl, hm⟩ := (hb.pick b hbm).mem c hc
    simpa using heps l hl c hm
  unfold GetBest
  rw [outputs_iff]
  have hmap : ∀ best, BestPicks ls kbest.toNat best →
      best.map (fun b => (spell b.2, sumCost b.2 + 0)) =
        best.map (fun b => (strJoin [32] (b.2.map (·.1)), sumCost b.2)) := by
    intro best hb
    apply List.map_congr_left
    intro b hbm
    rw [hspell best hb b hbm, add_zero]
  constructor
  · rintro ⟨best, hb, rfl⟩
    have hbne := best_ne_nil hb hne (by omega)
    rw [if_neg (by rintro (h | h); exacts [by omega, hbne h]), hmap best hb]
    obtain ⟨h1, h2⟩ := norm_spec (best.map (fun b => (strJoin [32] (b.2.map (·.1)), sumCost b.2)))
      (by simpa using hbne)
    refine ⟨best, _, hb, rfl, ?_, ?_⟩
    · rw [h1, List.map_map]; rfl
    · rw [List.map_map] at h2; exact h2
  · rintro ⟨best, out, hb, rfl, h1, h2⟩
    have hbne := best_ne_nil hb hne (by omega)
    refine ⟨best, hb, ?_⟩
    rw [if_neg (by rintro (h | h); exacts [by omega, hbne h]), hmap best hb]
    obtain ⟨k1, k2⟩ := norm_spec (best.map (fun b => (strJoin [32] (b.2.map (·.1)), sumCost b.2)))
      (by simpa using hbne)
    rw [List.map_map] at k1 k2
    have e2 := norm_unique h2 k2 (by simpa using hbne)
    have e1 := h1.trans k1.symm
    congr 1
    generalize getOutputsNorm _ = out' at e1 e2
    apply List.ext_getElem?
    intro i
    have f1 := congrArg (fun l => l[i]?) e1
    have f2 := congrArg (fun l => l[i]?) e2
    simp only [List.getElem?_map] at f1 f2
    cases ho : out[i]? with
    | none =>
      rw [ho] at f1
      cases ho' : out'[i]? with
      | none => rfl
      | some c => rw [ho'] at f1; cases f1
    | some c =>
      rw [ho] at f1 f2
      cases ho' : out'[i]? with
      | none => rw [ho'] at f1; cases f1
      | some d =>
        rw [ho'] at f1 f2
        simp only [Option.map_some, Option.some.injEq] at f1 f2
        rw [Prod.ext f1 f2]

/-- C84: a result always exists. -/
theorem C84_exists (ls : List (List RCand)) (kbest : Int) : ∃ r, GetBest ls kbest r := by
  obtain ⟨best, hb⟩ := Extract.exists_best ls kbest.toNat
  exact ⟨_, (outputs_iff _ _ _ _).2 ⟨best, hb, rfl⟩⟩

/-- C84: with `k ≤ 0`, or with a position without candidates, the program reads out of range. -/
theorem C84_error (ls : List (List RCand)) (kbest : Int) (h : kbest ≤ 0 ∨ [] ∈ ls)
    (r : Except Err (List RCand)) : GetBest ls kbest r ↔ r = .error .outOfRange := by
  unfold GetBest
  rw [outputs_iff]
  have key : ∀ best, BestPicks ls kbest.toNat best → kbest ≤ 0 ∨ best = [] := by
    intro best hb
    rcases h with h | h
    · exact .inl h
    · right
      cases best with
      | nil => rfl
      | cons b bs => exact absurd (hb.pick b (by simp)) (no_pick h _ _)
  constructor
  · rintro ⟨best, hb, rfl⟩
    rw [if_pos (key best hb)]
  · rintro rfl
    obtain ⟨best, hb⟩ := Extract.exists_best ls kbest.toNat
    exact ⟨best, hb, by rw [if_pos (key best hb)]⟩

/-- C84 fails for the word `<epsilon>`: it has label 0 in the symbol table and is left out. -/
theorem C84_epsilon_violated :
    GetBest [[([97], 1)], [(epsilonName, 1)]] 1 (.ok [([97], 0)]) := by
  unfold GetBest
  rw [outputs_iff]
  refine ⟨[([0, 0], [([97], 1), (epsilonName, 1)])], ⟨?_, by simp, by simp, by simp, ?_⟩, ?_⟩
  · intro b hb
    simp only [List.mem_singleton] at hb
    subst hb
    exact .cons rfl (.cons rfl .nil)
  · intro js cs h hn
    exfalso
    apply hn
    cases h with
    | @cons _ _ j js c cs hj h =>
      cases h with
      | @cons _ _ j' js c' cs hj' h =>
        cases h
        cases j with
        | zero => cases j' with
          | zero => simp
          | succ j' => simp at hj'
        | succ j => simp at hj
  · rw [if_neg (by simp)]
    simp [getOutputsNorm, totLoop, spell, epsilonName, strJoin]

/-- A lattice with two positions that meets the hypotheses of `C84_best_partial`. -/
example : ∃ out, GetBest [[([97], 1), ([98], 2)], [([99], 0)]] 1 (.ok out) ∧ out.map (·.1) = [[97, 32, 99]] := by
  have h : BestPicks [[([97], 1), ([98], 2)], [([99], 0)]] 1 [([0, 0], [([97], 1), ([99], 0)])] := by
    refine ⟨?_, by simp, by simp, by simp, ?_⟩
    · intro b hb
      simp only [List.mem_singleton] at hb
      subst hb
      exact .cons rfl (.cons rfl .nil)
    · intro js cs h hn
      refine ⟨rfl, ?_⟩
      intro b hb
      simp only [List.mem_singleton] at hb
      subst hb
      cases h with
      | @cons _ _ j js c cs hj h =>
        cases h with
        | @cons _ _ j' js c' cs hj' h =>
          cases h
          match j, j' with
          | 0, 0 => simp at hj hj'; subst hj hj'; simp
          | 1, 0 => simp at hj hj'; subst hj hj'; norm_num [sumCost]
          | n + 2, _ => simp at hj
          | _, n + 1 => simp at hj'
  refine ⟨[([97, 32, 99], 0)], (C84_best_partial _ 1 (by norm_num) ?_ ?_ _).2 ⟨_, _, h, rfl, rfl, ?_⟩, rfl⟩
  · intro l hl
    simp at hl
    rcases hl with rfl | rfl <;> simp
  · intro l hl c hc
    simp at hl
    rcases hl with rfl | rfl
    · simp at hc
      rcases hc with rfl | rfl <;> decide
    · simp at hc; subst hc; decide
  · exact ⟨1, by simp [sumCost], by simp⟩

/-! ## C85: ensembles -/

/-- The weight of word `w` at position `j`: the summed probabilities of the candidates that have it
there. -/
noncomputable def vote (kept : List (List Str × ℝ)) (j : Nat) (w : Str) : ℝ :=
  ((kept.filter (fun c => decide (c.1[j]? = some w))).map (fun c => Real.exp (-c.2))).sum

/-- Product of the weights of words, the first of them at position `a`. -/
noncomputable def strength (kept : List (List Str × ℝ)) : Nat → List Str → ℝ
  | _, [] => 1
  | a, w :: ws => vote kept a w * strength kept (a + 1) ws

/-- Every word is at its position in some candidate. -/
def Combined (kept : List (List Str × ℝ)) (n : Nat) (ws : List Str) : Prop :=
  ws.length = n ∧ ∀ (j : Nat) (w : Str), ws[j]? = some w → ∃ c ∈ kept, c.1[j]? = some w

/-- `outs` lists, strongest first, `k` strongest combinations, or all if there are fewer. -/
structure Strongest (kept : List (List Str × ℝ)) (n k : Nat) (outs : List (List Str)) : Prop where
  combined : ∀ ws ∈ outs, Combined kept n ws
  nodup : outs.Nodup
  sorted : outs.Pairwise (fun a b => strength kept 0 b ≤ strength kept 0 a)
  length : outs.length ≤ k
  most : ∀ ws, Combined kept n ws → ws ∉ outs →
    outs.length = k ∧ ∀ b ∈ outs, strength kept 0 ws ≤ strength kept 0 b

section ensemble
variable (kept : List (List Str × ℝ))

theorem mem_column (j : Nat) (w : Str) : w ∈ column kept j ↔ ∃ c ∈ kept, c.1[j]? = some w := by
  unfold column
  rw [List.mem_reverse, List.mem_dedup, List.mem_reverse, List.mem_filterMap]

theorem column_nodup (j : Nat) : (column kept j).Nodup := by
  unfold column
  rw [List.nodup_reverse]
  exact List.nodup_dedup _

/-- Words that occur in the columns from `a` on. -/
def InColumns : Nat → List Str → Prop
  | _, [] => True
  | a, w :: ws => w ∈ column kept a ∧ InColumns (a + 1) ws

/-- Their costs. -/
noncomputable def costsOf : Nat → List Str → List RCand
  | _, [] => []
  | a, w :: ws => (w, voteCost kept a w) :: costsOf (a + 1) ws

/-- Their places. -/
def placesOf : Nat → List Str → List Nat
  | _, [] => []
  | a, w :: ws => (column kept a).idxOf w :: placesOf (a + 1) ws

theorem inColumns_iff (a : Nat) (ws : List Str) :
    InColumns kept a ws ↔ ∀ (j : Nat) (w : Str), ws[j]? = some w → ∃ c ∈ kept, c.1[a + j]? = some w := by
  induction ws generalizing a with
  | nil => simp [InColumns]
  | cons v ws ih =>
    simp only [InColumns, ih, mem_column]
    constructor
    · rintro ⟨h1, h2⟩ j w hw
      cases j with
      | zero => simp at hw; subst hw; exact h1
      | succ j =>
        have := h2 j w (by simpa using hw)
        rwa [show a + (j + 1) = a + 1 + j by omega]
    · intro h
      refine ⟨h 0 v rfl, ?_⟩
      intro j w hw
      have := h (j + 1) w (by simpa using hw)
      rwa [show a + (j + 1) = a + 1 + j by omega] at this

theorem combined_iff (n : Nat) (ws : List Str) :
    Combined kept n ws ↔ ws.length = n ∧ InColumns kept 0 ws := by
  unfold Combined
  rw [inColumns_iff]
  simp

theorem pick_columns (a n : Nat) (js : List Nat) (cs : List RCand) :
    Pick ((List.range' a n).map (fun j => (column kept j).map (fun w => (w, voteCost kept j w)))) js cs ↔
      ∃ ws, ws.length = n ∧ InColumns kept a ws ∧ js = placesOf kept a ws ∧ cs = costsOf kept a ws := by
  induction n generalizing a js cs with
  | zero =>
    constructor
    · intro h
      cases h
      exact ⟨[], rfl, trivial, rfl, rfl⟩
    · rintro ⟨ws, h, _, rfl, rfl⟩
      rw [List.length_eq_zero_iff] at h
      subst h
      exact .nil
  | succ n ih =>
    rw [List.range'_succ, List.map_cons]
    constructor
    · intro h
      cases h with
      | @cons _ _ j js c cs hj h =>
        obtain ⟨ws, h1, h2, rfl, rfl⟩ := (ih _ _ _).1 h
        rw [List.getElem?_map] at hj
        cases hw : (column kept a)[j]? with
        | none => rw [hw] at hj; cases hj
        | some w =>
          rw [hw] at hj
          simp only [Option.map_some, Option.some.injEq] at hj
          subst hj
          refine ⟨w :: ws, by simp [h1], ⟨List.mem_of_getElem? hw, h2⟩, ?_, rfl⟩
          simp only [placesOf, List.cons.injEq, and_true]
          obtain ⟨hlt, e⟩ := List.getElem?_eq_some_iff.1 hw
          rw [← e, (column_nodup kept a).idxOf_getElem]
    · rintro ⟨ws, h1, h2, rfl, rfl⟩
      cases ws with
      | nil => simp at h1
      | cons w ws =>
        refine .cons ?_ ((ih _ _ _).2 ⟨ws, by simpa using h1, h2.2, rfl, rfl⟩)
        rw [List.getElem?_map, List.getElem?_eq_getElem (List.idxOf_lt_length_iff.2 h2.1),
          List.getElem_idxOf]
        rfl

theorem words_costsOf (a : Nat) (ws : List Str) : (costsOf kept a ws).map (·.1) = ws := by
  induction ws generalizing a with
  | nil => rfl
  | cons w ws ih => simp [costsOf, ih]

theorem placesOf_inj (a : Nat) (vs ws : List Str) (hl : vs.length = ws.length) (hv : InColumns kept a vs)
    (h : placesOf kept a vs = placesOf kept a ws) : vs = ws := by
  induction vs generalizing a ws with
  | nil => exact (List.length_eq_zero_iff.1 hl.symm).symm
  | cons v vs ih =>
    cases ws with
    | nil => simp at hl
    | cons w ws =>
      simp only [placesOf, List.cons.injEq] at h
      rw [(List.idxOf_inj hv.1).1 h.1, ih (a + 1) ws (by simpa using hl) hv.2 h.2]

theorem vote_pos {j : Nat} {w : Str} (h : w ∈ column kept j) : 0 < vote kept j w := by
  obtain ⟨c, hc, e⟩ := (mem_column kept j w).1 h
  unfold vote
  apply List.sum_pos
  · intro x hx
    obtain ⟨d, _, rfl⟩ := List.mem_map.1 hx
    exact Real.exp_pos _
  · intro hn
    have : c ∈ kept.filter (fun c => decide (c.1[j]? = some w)) := List.mem_filter.2 ⟨hc, by simpa using e⟩
    rw [List.map_eq_nil_iff] at hn
    rw [hn] at this
    simp at this

theorem strength_pos {a : Nat} {ws : List Str} (h : InColumns kept a ws) : 0 < strength kept a ws := by
  induction ws generalizing a with
  | nil => simp [strength]
  | cons w ws ih => exact mul_pos (vote_pos kept h.1) (ih h.2)

theorem exp_cost {a : Nat} {ws : List Str} (h : InColumns kept a ws) :
    Real.exp (-sumCost (costsOf kept a ws)) = strength kept a ws := by
  induction ws generalizing a with
  | nil => simp [costsOf, sumCost, strength]
  | cons w ws ih =>
    have ih := ih h.2
    simp only [sumCost, costsOf, List.map_cons, List.sum_cons, neg_add, Real.exp_add, strength] at ih ⊢
    rw [ih]
    congr 1
    unfold voteCost
    rw [neg_neg]
    exact Real.exp_log (vote_pos kept h.1)

theorem cost_le {a b : Nat} {vs ws : List Str} (hv : InColumns kept a vs) (hw : InColumns kept b ws) :
    sumCost (costsOf kept a vs) ≤ sumCost (costsOf kept b ws) ↔ strength kept b ws ≤ strength kept a vs := by
  rw [← exp_cost kept hv, ← exp_cost kept hw, Real.exp_le_exp, neg_le_neg_iff]

theorem columns_eq (n : Nat) : columns kept n = (List.range' 0 n).map (fun j =>
    (column kept j).map (fun w => (w, voteCost kept j w))) := by
  unfold columns
  rw [List.range_eq_range']

/-- The best choices from the columns are the strongest combinations. -/
theorem best_of_strongest {n k : Nat} {outs : List (List Str)} (h : Strongest kept n k outs) :
    BestPicks (columns kept n) k (outs.map (fun ws => (placesOf kept 0 ws, costsOf kept 0 ws))) := by
  have hin : ∀ ws ∈ outs, ws.length = n ∧ InColumns kept 0 ws := fun ws hw =>
    (combined_iff kept n ws).1 (h.combined ws hw)
  refine ⟨?_, ?_, ?_, by simpa using h.length, ?_⟩
  · intro b hb
    obtain ⟨ws, hw, rfl⟩ := List.mem_map.1 hb
    rw [columns_eq, pick_columns]
    exact ⟨ws, (hin ws hw).1, (hin ws hw).2, rfl, rfl⟩
  · rw [List.map_map, List.Nodup, List.pairwise_map]
    refine List.Pairwise.imp_of_mem ?_ h.nodup
    intro x y hx hy hxy e
    exact hxy (placesOf_inj kept 0 x y ((hin x hx).1.trans (hin y hy).1.symm) (hin x hx).2 e)
  · rw [List.pairwise_map]
    refine List.Pairwise.imp_of_mem ?_ h.sorted
    intro x y hx hy hxy
    exact (cost_le kept (hin x hx).2 (hin y hy).2).2 hxy
  · intro js cs hp hn
    rw [columns_eq, pick_columns] at hp
    obtain ⟨ws, h1, h2, rfl, rfl⟩ := hp
    have := h.most ws ((combined_iff kept n ws).2 ⟨h1, h2⟩) (fun hm => hn (List.mem_map.2
      ⟨_, List.mem_map.2 ⟨ws, hm, rfl⟩, rfl⟩))
    refine ⟨by simpa using this.1, ?_⟩
    intro b hb
    obtain ⟨v, hv, rfl⟩ := List.mem_map.1 hb
    exact (cost_le kept (hin v hv).2 h2).2 (this.2 v hv)

theorem strongest_of_best {n k : Nat} {best : List (List Nat × List RCand)}
    (h : BestPicks (columns kept n) k best) :
    ∃ outs, Strongest kept n k outs ∧ best = outs.map (fun ws => (placesOf kept 0 ws, costsOf kept 0 ws)) := by
  have hall : ∀ b ∈ best, ∃ ws : List Str, ws.length = n ∧ InColumns kept 0 ws ∧ b = (placesOf kept 0 ws, costsOf kept 0 ws) := by
    intro b hb
    have := h.pick b hb
    rw [columns_eq, pick_columns] at this
    obtain ⟨ws, h1, h2, h3, h4⟩ := this
    exact ⟨ws, h1, h2, Prod.ext h3 h4⟩
  have hex : ∃ outs : List (List Str), (∀ ws ∈ outs, ws.length = n ∧ InColumns kept 0 ws) ∧
      best = outs.map (fun ws => (placesOf kept 0 ws, costsOf kept 0 ws)) := by
    clear h
    induction best with
    | nil => exact ⟨[], by simp, rfl⟩
    | cons b best ih =>
      obtain ⟨outs, h1, h2⟩ := ih (fun x hx => hall x (by simp [hx]))
      obtain ⟨ws, g1, g2, rfl⟩ := hall b (by simp)
      refine ⟨ws :: outs, ?_, by rw [h2]; rfl⟩
      intro x hx
      rcases List.mem_cons.1 hx with rfl | hx
      · exact ⟨g1, g2⟩
      · exact h1 x hx
  obtain ⟨outs, hin, rfl⟩ := hex
  refine ⟨outs, ⟨fun ws hw => (combined_iff kept n ws).2 (hin ws hw), ?_, ?_, by simpa using h.length, ?_⟩, rfl⟩
  · have := h.nodup
    rw [List.map_map] at this
    exact (Extract.pairwise_of_map this).imp (fun h e => h (by rw [e]))
  · refine List.Pairwise.imp_of_mem ?_ (Extract.pairwise_of_map h.sorted)
    intro x y hx hy hxy
    exact (cost_le kept (hin x hx).2 (hin y hy).2).1 hxy
  · intro ws hw hn
    obtain ⟨h1, h2⟩ := (combined_iff kept n ws).1 hw
    have := h.least (placesOf kept 0 ws) (costsOf kept 0 ws) (by
      rw [columns_eq, pick_columns]; exact ⟨ws, h1, h2, rfl, rfl⟩) (by
      intro hm
      obtain ⟨b, hb, e⟩ := List.mem_map.1 hm
      obtain ⟨v, hv, rfl⟩ := List.mem_map.1 hb
      have := placesOf_inj kept 0 v ws ((hin v hv).1.trans h1.symm) (hin v hv).2 e
      exact hn (this ▸ hv))
    refine ⟨by simpa using this.1, ?_⟩
    intro b hb
    exact (cost_le kept (hin b hb).2 h2).1 (this.2 _ (List.mem_map.2 ⟨b, hb, rfl⟩))

/-- Some candidate is a combination. -/
theorem exists_combined {n : Nat} (hne : kept ≠ []) (hlen : ∀ c ∈ kept, c.1.length = n) :
    ∃ ws, Combined kept n ws := by
  obtain ⟨c, hc⟩ := List.exists_mem_of_ne_nil kept hne
  exact ⟨c.1, hlen c hc, fun j w hw => ⟨c, hc, hw⟩⟩

/-- Scores from strengths. -/
theorem scores_iff (outs : List (List Str)) (hne : outs ≠ []) (hin : ∀ ws ∈ outs, InColumns kept 0 ws)
    (fin : ℝ) (ss : List ℝ) :
    Normalised (outs.map (fun ws => sumCost (costsOf kept 0 ws) + fin)) ss ↔
      ss.length = outs.length ∧ ∀ (i : Nat) (ws : List Str) (s : ℝ), outs[i]? = some ws → ss[i]? = some s →
        Real.exp (-s) * (outs.map (strength kept 0)).sum = strength kept 0 ws := by
  have hS : 0 < (outs.map (strength kept 0)).sum := by
    apply List.sum_pos
    · intro x hx
      obtain ⟨ws, hw, rfl⟩ := List.mem_map.1 hx
      exact strength_pos kept (hin ws hw)
    · simpa using hne
  have fwd : ∀ ss, Normalised (outs.map (fun ws => sumCost (costsOf kept 0 ws) + fin)) ss →
      ss.length = outs.length ∧ ∀ (i : Nat) (ws : List Str) (s : ℝ), outs[i]? = some ws → ss[i]? = some s →
        Real.exp (-s) * (outs.map (strength kept 0)).sum = strength kept 0 ws := by
    rintro ss ⟨tot, rfl, hsum⟩
    refine ⟨by simp, ?_⟩
    have key : ∀ ws, InColumns kept 0 ws → Real.exp (-(sumCost (costsOf kept 0 ws) + fin - tot)) =
        strength kept 0 ws * Real.exp (tot - fin) := by
      intro ws hw
      rw [← exp_cost kept hw, ← Real.exp_add]
      congr 1
      ring
    have hmul : (outs.map (strength kept 0)).sum * Real.exp (tot - fin) = 1 := by
      rw [← hsum, ← List.sum_map_mul_right, List.map_map, List.map_map]
      congr 1
      apply List.map_congr_left
      intro ws hw
      exact (key ws (hin ws hw)).symm
    intro i ws s hi hs
    rw [List.map_map, List.getElem?_map, hi] at hs
    simp only [Option.map_some, Option.some.injEq, Function.comp] at hs
    rw [← hs, key ws (hin ws (List.mem_of_getElem? hi)), mul_assoc, mul_comm (Real.exp _), hmul, mul_one]
  refine ⟨fwd ss, ?_⟩
  rintro ⟨hl, h⟩
  obtain ⟨_, h2⟩ := norm_spec (outs.map (fun ws => (ws, sumCost (costsOf kept 0 ws) + fin))) (by simpa using hne)
  rw [List.map_map] at h2
  generalize (getOutputsNorm _).map (·.2) = ss' at h2
  obtain ⟨hl', h'⟩ := fwd ss' h2
  have : ss = ss' := by
    apply List.ext_getElem?
    intro i
    by_cases hi : i < outs.length
    · have e1 := h i _ _ (List.getElem?_eq_getElem hi) (List.getElem?_eq_getElem (by omega))
      have e2 := h' i _ _ (List.getElem?_eq_getElem hi) (List.getElem?_eq_getElem (by omega))
      rw [← e2] at e1
      have := Real.exp_injective (mul_right_cancel₀ hS.ne' e1)
      rw [List.getElem?_eq_getElem (by omega), List.getElem?_eq_getElem (by omega), neg_injective this]
    · rw [List.getElem?_eq_none (by omega), List.getElem?_eq_none (by omega)]
  rw [this]
  exact h2

end ensemble

/-- C85, for words other than `<epsilon>`: for candidates that all have `n` words and a positive `k`,
the possible results list the `k` strongest combinations of words, every word at the position it has in
some candidate, strongest first, each combination once; the strength of a combination is the product
over the positions of the summed probabilities of the candidates with that word there, and the score
of an output is minus the logarithm of its share of the strength of the outputs. -/
theorem C85_votes_partial (kept : List (List Str × ℝ)) (n : Nat) (kbest : Int) (hk : 0 < kbest)
    (hne : kept ≠ []) (hlen : ∀ c ∈ kept, c.1.length = n)
    (heps : ∀ c ∈ kept, epsilonName ∉ c.1) (r : Except Err (List RCand)) :
    EnsembleOutputs kept n kbest r ↔ ∃ outs out, Strongest kept n kbest.toNat outs ∧ r = .ok out ∧
      out.map (·.1) = outs.map (strJoin [32]) ∧
      ∀ (i : Nat) (ws : List Str) (c : RCand), outs[i]? = some ws → out[i]? = some c →
        Real.exp (-c.2) * (outs.map (strength kept 0)).sum = strength kept 0 ws := by
  unfold EnsembleOutputs
  rw [if_neg hne, outputs_iff]
  have hin : ∀ outs, Strongest kept n kbest.toNat outs → ∀ ws ∈ outs, InColumns kept 0 ws :=
    fun outs h ws hw => ((combined_iff kept n ws).1 (h.combined ws hw)).2
  have hone : ∀ outs, Strongest kept n kbest.toNat outs → outs ≠ [] := by
    rintro outs h rfl
    obtain ⟨ws, hw⟩ := exists_combined kept hne hlen
    have := (h.most ws hw (by simp)).1
    simp at this
    omega
  have hmap : ∀ outs, Strongest kept n kbest.toNat outs →
      (outs.map (fun ws => (placesOf kept 0 ws, costsOf kept 0 ws))).map
        (fun b => (spell b.2, sumCost b.2 + endCost kept)) =
      outs.map (fun ws => (strJoin [32] ws, sumCost (costsOf kept 0 ws) + endCost kept)) := by
    intro outs h
    rw [List.map_map]
    apply List.map_congr_left
    intro ws hw
    simp only [Function.comp, spell, words_costsOf]
    rw [List.filter_eq_self.2]
    intro w hwm
    obtain ⟨j, hj⟩ := List.mem_iff_getElem?.1 hwm
    obtain ⟨c, hc, e⟩ := (h.combined ws hw).2 j w hj
    have : w ≠ epsilonName := by
      rintro rfl
      exact heps c hc (List.mem_of_getElem? e)
    simpa using this
  constructor
  · rintro ⟨best, hb, rfl⟩
    obtain ⟨outs, ho, rfl⟩ := strongest_of_best kept hb
    have hn := hone outs ho
    rw [if_neg (by rintro (h | h); exacts [by omega, hn (by simpa using h)]), hmap outs ho]
    obtain ⟨h1, h2⟩ := norm_spec
      (outs.map (fun ws => (strJoin [32] ws, sumCost (costsOf kept 0 ws) + endCost kept))) (by simpa using hn)
    rw [List.map_map] at h1 h2
    refine ⟨outs, _, ho, rfl, h1, ?_⟩
    intro i ws c hi hc
    exact ((scores_iff kept outs hn (hin outs ho) _ _).1 h2).2 i ws c.2 hi (by rw [List.getElem?_map, hc]; rfl)
  · rintro ⟨outs, out, ho, rfl, h1, h2⟩
    have hn := hone outs ho
    refine ⟨_, best_of_strongest kept ho, ?_⟩
    rw [if_neg (by rintro (h | h); exacts [by omega, hn (by simpa using h)]), hmap outs ho]
    obtain ⟨k1, k2⟩ := norm_spec
      (outs.map (fun ws => (strJoin [32] ws, sumCost (costsOf kept 0 ws) + endCost kept))) (by simpa using hn)
    rw [List.map_map] at k1 k2
    have hl : out.length = outs.length := by
      have := congrArg List.length h1
      simpa using this
    have e2 : out.map (·.2) = (getOutputsNorm (outs.map (fun ws =>
        (strJoin [32] ws, sumCost (costsOf kept 0 ws) + endCost kept)))).map (·.2) := by
      refine norm_unique ((scores_iff kept outs hn (hin outs ho) _ _).2 ⟨by simpa using hl, ?_⟩) k2
        (by simpa using hn)
      intro i ws s hi hs
      rw [List.getElem?_map] at hs
      cases hc : out[i]? with
      | none => rw [hc] at hs; cases hs
      | some c =>
        rw [hc] at hs
        simp only [Option.map_some, Option.some.injEq] at hs
        rw [← hs]
        exact h2 i ws c hi hc
    have e1 := h1.trans k1.symm
    congr 1
    generalize getOutputsNorm _ = out' at e1 e2
    apply List.ext_getElem?
    intro i
    have f1 := congrArg (fun l => l[i]?) e1
    have f2 := congrArg (fun l => l[i]?) e2
    simp only [List.getElem?_map] at f1 f2
    cases ho : out[i]? with
    | none =>
      rw [ho] at f1
      cases ho' : out'[i]? with
      | none => rfl
      | some c => rw [ho'] at f1; cases f1
    | some c =>
      rw [ho] at f1 f2
      cases ho' : out'[i]? with
      | none => rw [ho'] at f1; cases f1
      | some d =>
        rw [ho'] at f1 f2
        simp only [Option.map_some, Option.some.injEq] at f1 f2
        rw [Prod.ext f1 f2]

/-- C85: a result exists. -/
theorem C85_exists (kept : List (List Str × ℝ)) (n : Nat) (kbest : Int) :
    ∃ r, EnsembleOutputs kept n kbest r := by
  unfold EnsembleOutputs
  by_cases h : kept = []
  · exact ⟨.ok [], by rw [if_pos h]⟩
  · obtain ⟨best, hb⟩ := Extract.exists_best (columns kept n) kbest.toNat
    exact ⟨_, by rw [if_neg h]; exact (outputs_iff _ _ _ _).2 ⟨best, hb, rfl⟩⟩

/-- The words of a candidate with its score. -/
noncomputable def splitCand (c : Kbest.Cand) : List Str × ℝ := ((words c.1).getD [], ((c.2 : ℚ) : ℝ))

/-- C85: running the ensemble on a list of inputs combines by votes the candidates kept by the alignment,
which have the same number `n` of words (which ones these are is told by `C53_aligned`); candidates
without words are an error. -/
theorem C85_run (inputs kept : List Kbest.Cand) (states : List (List Int)) (len kbest : Int)
    (h : Kbest.simpleAlign len inputs = .ok (kept, states)) (hk : kept ≠ []) :
    ∃ n : Nat, (∀ c ∈ kept, HasWords c n) ∧
      ∀ r, RunEnsemble inputs len kbest r ↔
        if n = 0 then r = .error .check else EnsembleOutputs (kept.map splitCand) n kbest r := by
  obtain ⟨n, hw, _, _, _, _, hchk⟩ := C53_aligned len inputs kept states h hk
  refine ⟨n, hw, ?_⟩
  intro r
  unfold RunEnsemble
  rw [h]
  simp only
  rw [hchk]
  by_cases h0 : n = 0
  · rw [if_pos h0, if_pos h0]
  · rw [if_neg h0, if_neg h0]
    have hm : ∀ l : List Kbest.Cand, (∀ c ∈ l, HasWords c n) →
        l.mapM (fun c => (words c.1).map (fun ws => (ws, ((c.2 : ℚ) : ℝ)))) = some (l.map splitCand) := by
      intro l hl
      induction l with
      | nil => rfl
      | cons c l ih =>
        obtain ⟨ws, h1, h2⟩ := hl c (by simp)
        rw [List.mapM_cons, ih (fun x hx => hl x (by simp [hx]))]
        simp [splitCand, h1, bind, Option.bind, pure]
    simp only
    rw [hm kept hw]
    cases kept with
    | nil => exact absurd rfl hk
    | cons c kept =>
      obtain ⟨ws, h1, h2⟩ := hw c (by simp)
      simp [splitCand, h1, h2]

/-- Three candidates of the same weight, two words each: the winner of the votes is the combination of
the most frequent first word with the most frequent second word. -/
theorem votes_example : Strongest [([[97], [98]], 0), ([[97], [99]], 0), ([[100], [98]], 0)] 2 1 [[[97], [98]]] := by
  have hs : strength [([[97], [98]], 0), ([[97], [99]], 0), ([[100], [98]], 0)] 0 [[97], [98]] = 4 := by
    simp [strength, vote]; norm_num
  refine ⟨?_, by simp, by simp, by simp, ?_⟩
  · intro ws hw
    simp only [List.mem_singleton] at hw
    subst hw
    refine ⟨rfl, ?_⟩
    intro j w hj
    exact ⟨_, List.mem_cons_self, hj⟩
  · intro ws hw hn
    refine ⟨rfl, ?_⟩
    intro b hb
    simp only [List.mem_singleton] at hb
    subst hb
    rw [hs]
    obtain ⟨hl, hall⟩ := hw
    match ws, hl with
    | [v, w], _ =>
      obtain ⟨c, hc, e⟩ := hall 0 v rfl
      obtain ⟨d, hd, f⟩ := hall 1 w rfl
      simp only [List.mem_cons, List.not_mem_nil, or_false] at hc hd
      rcases hc with rfl | rfl | rfl <;> simp at e <;> subst e <;>
        rcases hd with rfl | rfl | rfl <;> simp at f <;> subst f <;>
        simp [strength, vote] <;> norm_num

example : ∃ out, EnsembleOutputs [([[97], [98]], 0), ([[97], [99]], 0), ([[100], [98]], 0)] 2 1 (.ok out) ∧
    out.map (·.1) = [[97, 32, 98]] := by
  refine ⟨[([97, 32, 98], 0)], (C85_votes_partial _ 2 1 (by norm_num) (by simp) ?_ ?_ _).2
    ⟨[[[97], [98]]], _, votes_example, rfl, rfl, ?_⟩, rfl⟩
  · intro c hc
    simp only [List.mem_cons, List.not_mem_nil, or_false] at hc
    rcases hc with rfl | rfl | rfl <;> rfl
  · intro c hc
    simp only [List.mem_cons, List.not_mem_nil, or_false] at hc
    rcases hc with rfl | rfl | rfl <;> decide
  · intro i ws c hi hc
    cases i with
    | zero => simp at hi hc; subst hi hc; simp
    | succ i => simp at hi

/-! ## C86: reading the candidates of several systems -/

/-- The candidates a system gives for one input: the input, and outputs with costs. -/
abbrev Answer := Str × List (Str × ℝ)

/-- Lines of an answer. -/
def answerLines (a : Answer) : List (Str × Str × ℝ) := a.2.map (fun c => (a.1, c))

/-- Answers as they are grouped: none is empty and neighbouring answers have different inputs. -/
def Grouped (as : List Answer) : Prop :=
  (∀ a ∈ as, a.2 ≠ []) ∧ as.IsChain (fun a b => a.1 ≠ b.1)

/-- Whitespace of a text made single spaces. -/
def spaced (s : Str) : Str := strJoin [32] ((words s).getD [])

/-- Candidates as they are kept. -/
def spacedCands (l : List (Str × ℝ)) : List RCand := l.map (fun c => (spaced c.1, c.2))

theorem readInput_fold (lines : List (Str × Str × ℝ)) (hv : ∀ l ∈ lines, words l.2.1 ≠ none) :
    ∃ as : List Answer, Grouped as ∧ lines = as.flatMap answerLines ∧
      lines.foldlM readInput {} = some { inputs := as.map (·.1), cands := as.map (fun a => spacedCands a.2) } := by
  induction lines using List.reverseRecOn with
  | nil => exact ⟨[], ⟨by simp, by simp⟩, rfl, rfl⟩
  | append_singleton lines l ih =>
    obtain ⟨as, ⟨h1, h2⟩, h3, h4⟩ := ih (fun x hx => hv x (by simp [hx]))
    obtain ⟨inp, o, c⟩ := l
    have hw : ∃ ws, words o = some ws := by
      have := hv (inp, o, c) (by simp)
      cases hx : words o with
      | none => exact absurd hx this
      | some ws => exact ⟨ws, rfl⟩
    obtain ⟨ws, hw⟩ := hw
    rw [List.foldlM_append, h4]
    simp only [bind, Option.bind, List.foldlM_cons, List.foldlM_nil]
    cases as using List.reverseRecOn with
    | nil =>
      refine ⟨[(inp, [(o, c)])], ⟨by simp, by simp⟩, ?_, ?_⟩
      · rw [h3]; simp [answerLines]
      · simp [readInput, hw, addLast, spacedCands, spaced, pure]
    | append_singleton as a =>
      by_cases e : a.1 = inp
      · refine ⟨as ++ [(a.1, a.2 ++ [(o, c)])], ⟨?_, ?_⟩, ?_, ?_⟩
        · intro x hx
          rcases List.mem_append.1 hx with hx | hx
          · exact h1 x (by simp [hx])
          · simp only [List.mem_singleton] at hx; subst hx; simp
        · rw [List.isChain_append] at h2 ⊢
          refine ⟨h2.1, by simp, ?_⟩
          intro x hx y hy
          simp only [List.head?_cons, Option.mem_def, Option.some.injEq] at hy
          subst hy
          exact h2.2.2 x hx a (by simp)
        · rw [h3]; simp [answerLines, e]
        · have : ¬ ((as ++ [a]).map (·.1) = [] ∨ ((as ++ [a]).map (·.1)).getLast? ≠ some inp) := by
            simp [e]
          simp only [readInput]
          rw [if_neg this]
          simp only [hw, List.map_append, List.map_cons, List.map_nil, addLast_snoc, pure]
          simp [spacedCands, spaced, hw]
      · refine ⟨(as ++ [a]) ++ [(inp, [(o, c)])], ⟨?_, ?_⟩, ?_, ?_⟩
        · intro x hx
          rcases List.mem_append.1 hx with hx | hx
          · exact h1 x hx
          · simp only [List.mem_singleton] at hx; subst hx; simp
        · rw [List.isChain_append]
          refine ⟨h2, by simp, ?_⟩
          intro x hx y hy
          simp only [List.getLast?_append, List.getLast?_singleton, Option.some_or, Option.mem_def,
            Option.some.injEq, List.head?_cons] at hx hy
          subst hx hy
          exact e
        · rw [h3]; simp [answerLines]
        · have : (as ++ [a]).map (·.1) = [] ∨ ((as ++ [a]).map (·.1)).getLast? ≠ some inp := by
            right; simp [e]
          simp only [readInput]
          rw [if_pos this]
          simp only [hw, addLast_snoc, pure]
          simp [spacedCands, spaced, hw]

/-- C86: a file is read as the sequence of its answers: maximal runs of lines with the same input.
Nothing is lost, and only the whitespace of the outputs is normalised. -/
theorem C86_read (lines : List (Str × Str × ℝ)) :
    ((∀ l ∈ lines, words l.2.1 ≠ none) → ∃ as : List Answer, Grouped as ∧
      lines = as.flatMap answerLines ∧ readInputs lines = some (as.map (fun a => spacedCands a.2))) ∧
    ((∃ l ∈ lines, words l.2.1 = none) → readInputs lines = none) := by
  constructor
  · intro h
    obtain ⟨as, h1, h2, h3⟩ := readInput_fold lines h
    exact ⟨as, h1, h2, by rw [readInputs, h3]; rfl⟩
  · rintro ⟨l, hl, hn⟩
    unfold readInputs
    have : ∀ (ls : List (Str × Str × ℝ)) (st : Inputs ℝ), l ∈ ls → ls.foldlM readInput st = none := by
      intro ls
      induction ls with
      | nil => simp
      | cons x ls ih =>
        intro st hm
        rw [List.foldlM_cons]
        cases hx : readInput st x with
        | none => rfl
        | some st' =>
          rcases List.mem_cons.1 hm with rfl | hm
          · simp [readInput, hn] at hx
          · exact ih st' hm
    rw [this lines {} hl]
    rfl

/-- Candidates of one system: same strings, costs shifted to be negative logarithms of probabilities. -/
def NormCands (l out : List RCand) : Prop :=
  out.map (·.1) = l.map (·.1) ∧ Normalised (l.map (·.2)) (out.map (·.2))

theorem normAndPair_spec (l : List RCand) (h : l ≠ []) : ∃ out, normAndPair l = some out ∧ NormCands l out := by
  obtain ⟨out, tot, h1, h2, h3⟩ := (C52_ensemble l).2 h
  refine ⟨out, h1, by rw [h2, List.map_map]; rfl, tot, by rw [h2, List.map_map, List.map_map]; rfl, ?_⟩
  have := h3.sum
  rwa [List.map_map]

/-- C86: combining systems with the same number of answers: the candidates for the `j`-th example are
the candidates of the `j`-th answer of every system, in the order of the systems, each system
normalised for itself, so that every system has the same total vote 1.  Systems with different
numbers of answers, or fewer than two systems, are an error. -/
theorem C86_combined (systems : List (List Answer)) (hg : ∀ s ∈ systems, Grouped s)
    (hv : ∀ s ∈ systems, ∀ a ∈ s, ∀ c ∈ a.2, words c.1 ≠ none) :
    (systems.length < 2 → readEnsemble (systems.map (·.flatMap answerLines)) = .error .check) ∧
    (2 ≤ systems.length → (∃ s ∈ systems, ∃ t ∈ systems, s.length ≠ t.length) →
      readEnsemble (systems.map (·.flatMap answerLines)) = .error .check) ∧
    ∀ m : Nat, 2 ≤ systems.length → (∀ s ∈ systems, s.length = m) →
      ∃ r, readEnsemble (systems.map (·.flatMap answerLines)) = .ok r ∧ r.length = m ∧
        ∀ (j : Nat) (cands : List RCand), r[j]? = some cands →
          ∃ parts : List (List RCand), cands = parts.flatten ∧ parts.length = systems.length ∧
            (cands.map (fun c => Real.exp (-c.2))).sum = systems.length ∧
            ∀ (i : Nat) (s : List Answer) (a : Answer) (p : List RCand), systems[i]? = some s → s[j]? = some a →
              parts[i]? = some p → NormCands (spacedCands a.2) p := by
  have hread : ∀ s ∈ systems, readInputs (s.flatMap answerLines) = some (s.map (fun a => spacedCands a.2)) := by
    intro s hs
    obtain ⟨as, h1, h2, h3⟩ := readInput_fold (s.flatMap answerLines) (by
      intro l hl
      obtain ⟨a, ha, hl⟩ := List.mem_flatMap.1 hl
      obtain ⟨c, hc, rfl⟩ := List.mem_map.1 hl
      exact hv s hs a ha c hc)
    have : s = as := by
      have key : ∀ (x y : List Answer), Grouped x → Grouped y → x.flatMap answerLines = y.flatMap answerLines → x = y := by
        intro x
        induction x with
        | nil =>
          intro y _ hy e
          cases y with
          | nil => rfl
          | cons b y =>
            exfalso
            have := hy.1 b (by simp)
            simp [answerLines, this] at e
        | cons a x ih =>
          intro y hx hy e
          cases y with
          | nil =>
            exfalso
            have := hx.1 a (by simp)
            simp [answerLines, this] at e
          | cons b y =>
            -- first inputs agree
            obtain ⟨ai, ac⟩ := a
            obtain ⟨bi, bc⟩ := b
            have hfirst : ∀ (z : List Answer) (i : Str), (∀ a ∈ z, a.2 ≠ []) → (∀ a, z.head? = some a → a.1 ≠ i) →
                ∀ l, (z.flatMap answerLines).head? = some l → l.1 ≠ i := by
              intro z i h1 h2 l hl
              cases z with
              | nil => simp at hl
              | cons c z =>
                obtain ⟨ci, cc⟩ := c
                have := h1 (ci, cc) (by simp)
                cases cc with
                | nil => exact absurd rfl this
                | cons d cc =>
                  simp [answerLines] at hl
                  subst hl
                  exact h2 _ rfl
            have hxs : Grouped x := ⟨fun a ha => hx.1 a (by simp [ha]), (List.isChain_cons.1 hx.2).2⟩
            have hys : Grouped y := ⟨fun a ha => hy.1 a (by simp [ha]), (List.isChain_cons.1 hy.2).2⟩
            have hi : ai = bi := by
              have h1 := hx.1 (ai, ac) (by simp)
              have h2 := hy.1 (bi, bc) (by simp)
              cases ac with
              | nil => exact absurd rfl h1
              | cons p ac =>
                cases bc with
                | nil => exact absurd rfl h2
                | cons q bc =>
                  simp [answerLines] at e
                  exact e.1.1
            subst hi
            have hfx := hfirst x ai hxs.1 (fun a ha => ((List.isChain_cons.1 hx.2).1 a (by simpa using ha)).symm)
            have hfy := hfirst y ai hys.1 (fun a ha => ((List.isChain_cons.1 hy.2).1 a (by simpa using ha)).symm)
            simp only [List.flatMap_cons] at e
            have hsplit : ∀ (u v : List (Str × ℝ)) (X Y : List (Str × Str × ℝ)),
                (∀ l, X.head? = some l → l.1 ≠ ai) → (∀ l, Y.head? = some l → l.1 ≠ ai) →
                u.map (fun c => (ai, c)) ++ X = v.map (fun c => (ai, c)) ++ Y → u = v ∧ X = Y := by
              intro u
              induction u with
              | nil =>
                intro v X Y hX hY e
                cases v with
                | nil => exact ⟨rfl, by simpa using e⟩
                | cons d v =>
                  exfalso
                  simp at e
                  exact hX (ai, d) (by rw [e]; rfl) rfl
              | cons d u ihu =>
                intro v X Y hX hY e
                cases v with
                | nil =>
                  exfalso
                  simp at e
                  exact hY (ai, d) (by rw [← e]; rfl) rfl
                | cons d' v =>
                  simp at e
                  obtain ⟨h1, h2⟩ := ihu v X Y hX hY (by simpa using e.2)
                  exact ⟨by rw [e.1, h1], h2⟩
            obtain ⟨h1, h2⟩ := hsplit ac bc _ _ hfx hfy e
            rw [h1, ih y hxs hys h2]
      exact key s as (hg s hs) h1 h2
    rw [readInputs, h3, this]
    rfl
  have hreads : (systems.map (·.flatMap answerLines)).mapM readInputs =
      some (systems.map (fun s => s.map (fun a => spacedCands a.2))) := by
    clear hg hv
    induction systems with
    | nil => rfl
    | cons s ss ih =>
      rw [List.map_cons, List.mapM_cons, hread s (by simp), ih (fun x hx => hread x (by simp [hx]))]
      rfl
  -- normalisation
  have hnorm : ∀ s : List Answer, (∀ a ∈ s, a.2 ≠ []) → ∃ out, (s.map (fun a => spacedCands a.2)).mapM normAndPair = some out ∧
      out.length = s.length ∧ ∀ (j : Nat) (a : Answer) (o : List RCand), s[j]? = some a → out[j]? = some o →
        NormCands (spacedCands a.2) o := by
    intro s hs
    induction s with
    | nil => exact ⟨[], rfl, rfl, by simp⟩
    | cons a s ih =>
      obtain ⟨out, h1, h2, h3⟩ := ih (fun x hx => hs x (by simp [hx]))
      obtain ⟨o, g1, g2⟩ := normAndPair_spec (spacedCands a.2) (by
        have := hs a (by simp)
        simpa [spacedCands] using this)
      refine ⟨o :: out, ?_, by simp [h2], ?_⟩
      · rw [List.map_cons, List.mapM_cons, g1, h1]; rfl
      · intro j b o' hb ho
        cases j with
        | zero => simp at hb ho; subst hb ho; exact g2
        | succ j => exact h3 j b o' (by simpa using hb) (by simpa using ho)
  have hnorms : ∀ ss : List (List Answer), (∀ s ∈ ss, Grouped s) →
      ∃ outs, (ss.map (fun s => s.map (fun a => spacedCands a.2))).mapM (fun s => s.mapM normAndPair) = some outs ∧
      outs.length = ss.length ∧ ∀ (i : Nat) (s : List Answer) (o : List (List RCand)), ss[i]? = some s → outs[i]? = some o →
        o.length = s.length ∧ ∀ (j : Nat) (a : Answer) (c : List RCand), s[j]? = some a → o[j]? = some c →
          NormCands (spacedCands a.2) c := by
    intro ss hss
    induction ss with
    | nil => exact ⟨[], rfl, rfl, by simp⟩
    | cons s ss ih =>
      obtain ⟨outs, h1, h2, h3⟩ := ih (fun x hx => hss x (by simp [hx]))
      obtain ⟨o, g1, g2, g3⟩ := hnorm s (hss s (by simp)).1
      refine ⟨o :: outs, ?_, by simp [h2], ?_⟩
      · rw [List.map_cons, List.mapM_cons, g1, h1]; rfl
      · intro i t o' hb ho
        cases i with
        | zero => simp at hb ho; subst hb ho; exact ⟨g2, g3⟩
        | succ i => exact h3 i t o' (by simpa using hb) (by simpa using ho)
  obtain ⟨outs, n1, n2, n3⟩ := hnorms systems hg
  have hrun : 2 ≤ systems.length → readEnsemble (systems.map (·.flatMap answerLines)) = combine outs := by
    intro h2
    unfold readEnsemble
    rw [if_neg (by simp; omega), hreads]
    simp only [n1]
  refine ⟨?_, ?_, ?_⟩
  · intro h
    unfold readEnsemble
    rw [if_pos (by simpa using h)]
  · rintro h2 ⟨s, hs, t, ht, hne⟩
    rw [hrun h2]
    cases outs with
    | nil => simp at n2; omega
    | cons o os =>
      unfold combine
      simp only
      rw [if_neg]
      intro hall
      rw [List.all_eq_true] at hall
      have hlen : ∀ (i : Nat) (s : List Answer), systems[i]? = some s → s.length = o.length := by
        intro i s hi
        have hlt : i < (o :: os).length := by rw [n2]; exact (List.getElem?_eq_some_iff.1 hi).1
        have := (n3 i s _ hi (List.getElem?_eq_getElem hlt)).1
        rw [← this]
        cases i with
        | zero => rfl
        | succ i =>
          have hm : (o :: os)[i + 1] ∈ os := List.getElem_mem (l := os) (by simpa using hlt)
          simpa using hall _ hm
      obtain ⟨i, hi⟩ := List.mem_iff_getElem?.1 hs
      obtain ⟨j, hj⟩ := List.mem_iff_getElem?.1 ht
      exact hne ((hlen i s hi).trans (hlen j t hj).symm)
  · intro m h2 hm
    rw [hrun h2]
    have holen : ∀ x ∈ outs, x.length = m := by
      intro x hx
      obtain ⟨i, hi⟩ := List.mem_iff_getElem?.1 hx
      have hlt : i < systems.length := by rw [← n2]; exact (List.getElem?_eq_some_iff.1 hi).1
      rw [(n3 i _ x (List.getElem?_eq_getElem hlt) hi).1]
      exact hm _ (List.getElem_mem hlt)
    cases outs with
    | nil => simp at n2; omega
    | cons o os =>
      have ho : o.length = m := holen o (by simp)
      refine ⟨(List.range o.length).map (fun j => (o[j]?).getD [] ++ os.flatMap (fun t => (t[j]?).getD [])),
        ?_, ?_, ?_⟩
      · unfold combine
        simp only
        rw [if_pos]
        rw [List.all_eq_true]
        intro t ht
        simp [ho, holen t (by simp [ht])]
      · simp [ho]
      · intro j cands hj
        have hjm : j < m := by
          have := (List.getElem?_eq_some_iff.1 hj).1
          simpa [ho] using this
        rw [List.getElem?_map, List.getElem?_range (by omega)] at hj
        simp only [Option.map_some, Option.some.injEq] at hj
        have hparts : ∀ (i : Nat) (s : List Answer) (a : Answer) (p : List RCand), systems[i]? = some s → s[j]? = some a →
            ((o :: os).map (fun t => (t[j]?).getD []))[i]? = some p → NormCands (spacedCands a.2) p := by
          intro i s a p hi ha hp
          rw [List.getElem?_map] at hp
          have hlt : i < (o :: os).length := by rw [n2]; exact (List.getElem?_eq_some_iff.1 hi).1
          rw [List.getElem?_eq_getElem hlt] at hp
          simp only [Option.map_some, Option.some.injEq] at hp
          have hjlt : j < (o :: os)[i].length := by rw [holen _ (List.getElem_mem hlt)]; exact hjm
          rw [List.getElem?_eq_getElem hjlt] at hp
          exact (n3 i s _ hi (List.getElem?_eq_getElem hlt)).2 j a p ha (by rw [List.getElem?_eq_getElem hjlt, ← hp]; rfl)
        refine ⟨(o :: os).map (fun t => (t[j]?).getD []), ?_, by simpa using n2, ?_, hparts⟩
        · rw [← hj, List.map_cons, List.flatten_cons, List.flatMap]
        · have hone : ∀ p ∈ (o :: os).map (fun t => (t[j]?).getD []), (p.map (fun c => Real.exp (-c.2))).sum = 1 := by
            intro p hp
            obtain ⟨i, hi⟩ := List.mem_iff_getElem?.1 hp
            have hlt : i < systems.length := by
              rw [← n2]
              have := (List.getElem?_eq_some_iff.1 hi).1
              simpa using this
            have hs := hm _ (List.getElem_mem hlt)
            have := hparts i _ _ p (List.getElem?_eq_getElem hlt) (List.getElem?_eq_getElem (by omega)) hi
            obtain ⟨_, tot, _, h⟩ := this
            rwa [List.map_map] at h
          have hsum : ∀ ps : List (List RCand), (∀ p ∈ ps, (p.map (fun c => Real.exp (-c.2))).sum = 1) →
              (ps.flatten.map (fun c => Real.exp (-c.2))).sum = ps.length := by
            intro ps hps
            induction ps with
            | nil => simp
            | cons p ps ih =>
              rw [List.flatten_cons, List.map_append, List.sum_append, hps p (by simp),
                ih (fun x hx => hps x (by simp [hx]))]
              simp [add_comm]
          have := hsum _ hone
          rw [List.length_map, n2] at this
          rw [← this, ← hj, List.map_cons, List.flatten_cons, List.flatMap]

/-- Two systems with one answer each. -/
example : Grouped [([105], [([97], 0), ([98], 0)])] ∧ Grouped [([105], [([97], 0)])] ∧
    (∀ c ∈ [(([97], 0) : Str × ℝ), ([98], 0)], words c.1 ≠ none) := by
  refine ⟨⟨by simp, by simp⟩, ⟨by simp, by simp⟩, ?_⟩
  intro c hc
  simp only [List.mem_cons, List.not_mem_nil, or_false] at hc
  rcases hc with rfl | rfl
  · show words [97] ≠ none; decide
  · show words [98] ≠ none; decide

/-- C86 fails when one input comes twice in a row: both answers become one. -/
theorem C86_repeat_violated :
    readInputs [([105], [97], (1 : ℝ)), ([105], [98], 2)] = some [[([97], 1), ([98], 2)]] := by
  rfl

/-- C86 fails when the files are about different inputs: the inputs are not compared, and candidates
for `i` and for `j` are combined as one example. -/
theorem C86_inputs_violated :
    ∃ a b : ℝ, readEnsemble [[([105], [97], 1)], [([106], [98], 1)]] = .ok [[([97], a), ([98], b)]] := by
  have h1 : readInputs [([105], [97], (1 : ℝ))] = some [[([97], 1)]] := rfl
  have h2 : readInputs [([106], [98], (1 : ℝ))] = some [[([98], 1)]] := rfl
  refine ⟨1 - 1, 1 - 1, ?_⟩
  unfold readEnsemble
  rw [if_neg (by simp), List.mapM_cons, List.mapM_cons, h1, h2]
  rfl

end Nisaba.Props
