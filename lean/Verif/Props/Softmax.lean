import Verif.Model.Softmax
/-!
# Normalised candidate weights (C52)
-/
namespace Nisaba.Props
open Nisaba.Softmax

/-- `ps` are the probabilities of costs `ss`: positive, proportional to `exp (-s)`, with sum 1. -/
structure Probabilities (ss ps : List ℝ) : Prop where
  length : ps.length = ss.length
  pos : ∀ p ∈ ps, 0 < p
  sum : ps.sum = 1
  ratio : ∀ (i j : ℕ) (p q s t : ℝ), ps[i]? = some p → ss[i]? = some s → ps[j]? = some q →
    ss[j]? = some t → p * Real.exp (-t) = q * Real.exp (-s)

/-- Sum of the weights. -/
noncomputable def expSum (ss : List ℝ) : ℝ := (ss.map (fun s => Real.exp (-s))).sum

theorem expSum_nonneg (ss : List ℝ) : 0 ≤ expSum ss := by
  apply List.sum_nonneg
  intro x hx
  obtain ⟨s, _, rfl⟩ := List.mem_map.1 hx
  exact (Real.exp_pos _).le

theorem expSum_pos {ss : List ℝ} (h : ss ≠ []) : 0 < expSum ss := by
  cases ss with
  | nil => exact absurd rfl h
  | cons s ss =>
    have := expSum_nonneg ss
    have h2 := Real.exp_pos (-s)
    simp only [expSum, List.map_cons, List.sum_cons] at this ⊢
    linarith

theorem foldl_expSum (ss : List ℝ) (a : ℝ) :
    ss.foldl (fun e s => e + Real.exp (-s)) a = a + expSum ss := by
  induction ss generalizing a with
  | nil => simp [expSum]
  | cons s ss ih => rw [List.foldl_cons, ih]; simp only [expSum, List.map_cons, List.sum_cons]; ring

theorem totLoop_eq (ss : List ℝ) (t : ℝ) :
    Real.exp (-totLoop t ss) = Real.exp (-t) + expSum ss := by
  induction ss generalizing t with
  | nil => simp [totLoop, expSum]
  | cons s ss ih =>
    rw [totLoop, ih, neg_neg, Real.exp_log (by have := Real.exp_pos (-t); have := Real.exp_pos (-s); linarith)]
    simp only [expSum, List.map_cons, List.sum_cons]; ring

theorem probs_of_norm (ss : List ℝ) (n : ℝ) (hne : ss ≠ []) (hn : Real.exp (-n) = expSum ss) :
    Probabilities ss (ss.map (fun s => Real.exp (-s + n))) := by
  have hpos := expSum_pos hne
  refine ⟨by simp, ?_, ?_, ?_⟩
  · intro p hp
    obtain ⟨s, _, rfl⟩ := List.mem_map.1 hp
    exact Real.exp_pos _
  · have : ∀ l : List ℝ, (l.map (fun s => Real.exp (-s + n))).sum = expSum l * Real.exp n := by
      intro l
      induction l with
      | nil => simp [expSum]
      | cons s l ih =>
        simp only [expSum, List.map_cons, List.sum_cons] at ih ⊢
        rw [ih, Real.exp_add]; ring
    rw [this, ← hn, ← Real.exp_add]; simp
  · intro i j p q s t hp hs hq ht
    rw [List.getElem?_map, hs] at hp
    rw [List.getElem?_map, ht] at hq
    simp only [Option.map_some, Option.some.injEq] at hp hq
    rw [← hp, ← hq, ← Real.exp_add, ← Real.exp_add]
    congr 1; ring

/-- C52: the probabilities written for the candidates of an example are a probability distribution,
proportional to the exponentials of the negated costs.  Together with the zeros that fill up the
vectors, both vectors given to the earth mover's distance have sum 1. -/
theorem C52_written (ss : List ℝ) (h : ss ≠ []) :
    Probabilities ss (writeCands ss) ∧
    ∀ k, (writeCands ss ++ List.replicate k 0).sum = 1 ∧ (List.replicate k 0 ++ writeCands ss).sum = 1 := by
  have hp : Probabilities ss (writeCands ss) := by
    apply probs_of_norm ss _ h
    rw [getNormalizer, neg_neg, foldl_expSum, zero_add, Real.exp_log (expSum_pos h)]
  refine ⟨hp, fun k => ?_⟩
  simp [hp.sum]

/-- C52: reference counts `n`, read as costs `-log n`, become relative frequencies. -/
theorem C52_counts (ns : List ℝ) (h : ns ≠ []) (hpos : ∀ n ∈ ns, 0 < n) :
    writeCands (ns.map (fun n => -Real.log n)) = ns.map (fun n => n / ns.sum) := by
  have hs : ∀ l : List ℝ, (∀ n ∈ l, 0 < n) → expSum (l.map (fun n => -Real.log n)) = l.sum := by
    intro l hl
    induction l with
    | nil => rfl
    | cons n l ih =>
      have ih := ih (fun x hx => hl x (by simp [hx]))
      simp only [expSum, List.map_cons, List.sum_cons, neg_neg] at ih ⊢
      rw [ih, Real.exp_log (hl n (by simp))]
  have hsum : 0 < ns.sum := by
    rw [← hs ns hpos]; exact expSum_pos (by simpa using h)
  unfold writeCands
  rw [List.map_map]
  apply List.map_congr_left
  intro n hn
  simp only [Function.comp, neg_neg]
  rw [getNormalizer, foldl_expSum, zero_add, hs ns hpos, Real.exp_add, Real.exp_neg,
    Real.exp_log (hpos n hn), Real.exp_log hsum, div_eq_mul_inv]

/-- C52: normalising the candidates of a system for ensembling keeps the candidates, shifts all costs
by the same amount and makes their exponentials a probability distribution; an empty list is an
error. -/
theorem C52_ensemble {α : Type} (cands : List (α × ℝ)) :
    (cands = [] → normAndPair cands = none) ∧
    (cands ≠ [] → ∃ out tot, normAndPair cands = some out ∧
      out = cands.map (fun c => (c.1, c.2 - tot)) ∧
      Probabilities (cands.map (·.2)) (out.map (fun c => Real.exp (-c.2)))) := by
  refine ⟨by rintro rfl; rfl, ?_⟩
  intro h
  cases cands with
  | nil => exact absurd rfl h
  | cons c cs =>
    refine ⟨_, totLoop c.2 (cs.map (·.2)), rfl, rfl, ?_⟩
    have := probs_of_norm ((c :: cs).map (·.2)) (totLoop c.2 (cs.map (·.2))) (by simp) (by
      rw [totLoop_eq]; simp [expSum])
    rw [List.map_map] at this ⊢
    convert this using 3
    funext x
    simp only [Function.comp]
    congr 1; ring

/-- C52: the scores of the k best outputs are normalised in the same way. -/
theorem C52_outputs {α : Type} (paths : List (α × ℝ)) (h : paths ≠ []) :
    ∃ tot, getOutputsNorm paths = paths.map (fun c => (c.1, c.2 - tot)) ∧
      Probabilities (paths.map (·.2)) ((getOutputsNorm paths).map (fun c => Real.exp (-c.2))) := by
  obtain ⟨out, tot, h1, h2, h3⟩ := (C52_ensemble paths).2 h
  have : getOutputsNorm paths = out := by
    cases paths with
    | nil => exact absurd rfl h
    | cons c cs => exact Option.some.inj h1
  rw [this]
  exact ⟨tot, h2, h3⟩

/-- Two candidates with costs 0 and 1. -/
example : Probabilities [0, 1] (writeCands [0, 1]) := (C52_written [0, 1] (by simp)).1

end Nisaba.Props
