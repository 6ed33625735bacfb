import Verif.Lemmas.LmPosterior
import Verif.Props.PairLM
import Mathlib.Tactic.NormNum
/-!
# C127: with a language model the costs of candidates are their posteriors in the line
-/
namespace Nisaba.Props
open Nisaba.PairLM Nisaba.LmPosterior

set_option linter.unusedSectionVars false

section
variable {K : Type} [Field K] [LinearOrder K]

/-- The weight of a choice of one candidate per word: the product of the words' weights and of the weight
that the language model gives to the sequence. -/
def lineWeight (score : List Str → K) (cs : Cands K) : K :=
  (cs.map (·.2)).prod * score (cs.map (·.1))

/-- The share of the weight of all choices that those have with the candidate `y` for word `i`. -/
def posterior (score : List Str → K) (words : List (Cands K)) (i : Nat) (y : Str) : K :=
  (((choices words).filter fun cs => (cs[i]?).map (·.1) == some y).map (lineWeight score)).sum /
    ((choices words).map (lineWeight score)).sum

theorem pathWeight_pair (score : List Str → K) (p : List (LArc K)) :
    pathWeight score p = lineWeight score (p.map LArc.pair) := by
  simp only [pathWeight, lineWeight, List.map_map]
  rfl

theorem sum_filter_ite {α : Type} (l : List α) (P : α → Bool) (f : α → K) :
    ((l.filter P).map f).sum = (l.map fun a => if P a then f a else 0).sum := by
  induction l with
  | nil => rfl
  | cons a l ih => cases h : P a <;> simp [List.filter_cons, h, ih]

theorem lmPaths_total (score : List Str → K) (n : Nat) (words : List (Cands K)) :
    ((lmPaths false (numberLattice n words)).map (pathWeight score)).sum =
      ((choices words).map (lineWeight score)).sum := by
  rw [choices_eq n words, List.map_map]
  simp only [lmPaths, Bool.false_eq_true, if_false]
  congr 1
  exact List.map_congr_left fun p _ => pathWeight_pair score p

theorem costOf_line (score : List Str → K) (tiny : K) {words : List (Cands K)}
    (hd : ∀ s ∈ words, (s.map (·.1)).Nodup) {i : Nat} {slot : List (LArc K)}
    (hs : (numberLattice 1 words)[i]? = some slot) {a : LArc K} (ha : a ∈ slot) :
    costOf score tiny (lmPaths false (numberLattice 1 words)) a.id =
      if posterior score words i a.cand = 0 then tiny else posterior score words i a.cand := by
  have key : (((lmPaths false (numberLattice 1 words)).map fun p =>
      pathWeight score p * ((p.filter fun b => b.id == a.id).length : K)).sum) =
      (((choices words).filter fun cs => (cs[i]?).map (·.1) == some a.cand).map (lineWeight score)).sum := by
    rw [sum_filter_ite, choices_eq 1 words, List.map_map]
    simp only [lmPaths, Bool.false_eq_true, if_false]
    congr 1
    refine List.map_congr_left fun p hp => ?_
    rw [count_path hd hp hs ha, pathWeight_pair]
    simp only [Function.comp, List.getElem?_map, Option.map_map]
    have e : (Option.map ((fun x : Str × K => x.1) ∘ LArc.pair) p[i]?) = p[i]?.map (·.cand) := rfl
    rw [e]
    by_cases h : p[i]?.map (·.cand) = some a.cand
    · simp [h]
    · simp [h]
  unfold costOf posterior
  rw [key, lmPaths_total]

/-- C127: with a language model for the line, each word gets the final filter applied to its candidates
with their posteriors in the line as costs; `tiny` (cost 9999) stands for posterior 0. -/
theorem C127_posterior (score : List Str → K) (tiny : K) (k : Nat) (m : K) (words : List (Cands K))
    (hd : ∀ s ∈ words, (s.map (·.1)).Nodup) (ht : ((choices words).map (lineWeight score)).sum ≠ 0) :
    ∃ out, withLm false score tiny k m words = some out ∧ out.length = words.length ∧
      ∀ (i : Nat) (s : Cands K), words[i]? = some s →
        out[i]? = some (finalFilter k m (s.map fun p =>
          (p.1, if posterior score words i p.1 = 0 then tiny else posterior score words i p.1))) := by
  obtain ⟨out, h1, h2, h3⟩ := withLm_eq false score tiny k m words (by rw [lmPaths_total]; exact ht)
  refine ⟨out, h1, h2, fun i s hs => ?_⟩
  obtain ⟨b, hb, ho⟩ := h3 i s hs
  rw [ho]
  congr 2
  conv => rhs; rw [← numberSlot_pair b s]
  rw [List.map_map]
  refine List.map_congr_left fun a ha => ?_
  rw [costOf_line score tiny hd hb ha]
  rfl

/-- C127: what a user sees at a word with more than `k` candidates and without a minimum posterior: `k`
candidates of the word, each with its posterior, and none that is left out has a greater one. -/
theorem C127_best [IsStrictOrderedRing K] (score : List Str → K) (tiny : K) (k : Nat) (words : List (Cands K))
    (hd : ∀ s ∈ words, (s.map (·.1)).Nodup) (ht : ((choices words).map (lineWeight score)).sum ≠ 0)
    (i : Nat) (s : Cands K) (hs : words[i]? = some s) (hk : k < s.length)
    (hpos : ∀ p ∈ s, posterior score words i p.1 ≠ 0) :
    ∃ out kept dropped, withLm false score tiny k 0 words = some out ∧ out[i]? = some kept ∧
      kept.length = k ∧ (kept.map (·.1) ++ dropped).Perm (s.map (·.1)) ∧
      (∀ p ∈ kept, p.2 = posterior score words i p.1) ∧
      ∀ p ∈ kept, ∀ y ∈ dropped, posterior score words i y ≤ p.2 := by
  obtain ⟨out, h1, -, h3⟩ := C127_posterior score tiny k 0 words hd ht
  have ho := h3 i s hs
  set arcs := s.map fun p =>
    (p.1, if posterior score words i p.1 = 0 then tiny else posterior score words i p.1) with harcs
  have hcost : ∀ q ∈ arcs, q.2 = posterior score words i q.1 := by
    intro q hq
    obtain ⟨p, hp, rfl⟩ := List.mem_map.1 hq
    simp [hpos p hp]
  have harc1 : arcs.map (·.1) = s.map (·.1) := by
    rw [harcs, List.map_map]
    rfl
  obtain ⟨f1, -, -, f4, -, dropped, f6, f7, -⟩ :=
    C63_filter_partial k 0 arcs (by rw [harcs, List.length_map]; exact hk)
  refine ⟨out, _, dropped.map (·.1), h1, ho, f4 le_rfl, ?_, fun p hp => hcost p (f1.subset hp), ?_⟩
  · rw [← List.map_append, ← harc1]
    exact f6.map _
  · intro p hp y hy
    obtain ⟨q, hq, rfl⟩ := List.mem_map.1 hy
    rw [← hcost q (f6.mem_iff.1 (List.mem_append.2 (.inr hq)))]
    exact f7 p hp q hq

theorem choices_at {words : List (Cands K)} {i : Nat} {s : Cands K} (hs : words[i]? = some s) {cs : Cands K}
    (h : cs ∈ choices words) : ∃ p ∈ s, cs[i]? = some p := by
  induction words generalizing i cs with
  | nil => simp at hs
  | cons t ss ih =>
    simp only [choices, List.mem_flatMap, List.mem_map] at h
    obtain ⟨p, hp, r, hr, rfl⟩ := h
    cases i with
    | zero =>
      simp only [List.getElem?_cons_zero, Option.some.injEq] at hs
      exact ⟨p, hs ▸ hp, rfl⟩
    | succ i =>
      simp only [List.getElem?_cons_succ] at hs
      obtain ⟨q, hq, e⟩ := ih hs hr
      exact ⟨q, hq, by simpa using e⟩

theorem sum_one_hot {ys : List Str} (hd : ys.Nodup) {y : Str} (hy : y ∈ ys) (w : K) :
    (ys.map fun x => if y = x then w else 0).sum = w := by
  induction ys with
  | nil => simp at hy
  | cons x ys ih =>
    rw [List.nodup_cons] at hd
    rw [List.map_cons, List.sum_cons]
    rcases List.mem_cons.1 hy with rfl | hy'
    · have : (ys.map fun x => if y = x then w else 0) = ys.map fun _ => 0 :=
        List.map_congr_left fun x hx => if_neg (by rintro rfl; exact hd.1 hx)
      rw [this]
      simp
    · have : y ≠ x := fun e => hd.1 (e ▸ hy')
      rw [if_neg this, ih hd.2 hy', zero_add]

theorem sum_swap {α β : Type} (l : List α) (r : List β) (f : α → β → K) :
    (l.map fun a => (r.map fun b => f a b).sum).sum = (r.map fun b => (l.map fun a => f a b).sum).sum := by
  induction l with
  | nil => simp
  | cons a l ih => simp only [List.map_cons, List.sum_cons, ih, List.sum_map_add]

/-- C127: the posteriors of the candidates of a word add up to 1. -/
theorem C127_sum (score : List Str → K) (words : List (Cands K))
    (hd : ∀ s ∈ words, (s.map (·.1)).Nodup) (ht : ((choices words).map (lineWeight score)).sum ≠ 0)
    (i : Nat) (s : Cands K) (hs : words[i]? = some s) :
    (s.map fun p => posterior score words i p.1).sum = 1 := by
  have hsn := hd s (List.mem_of_getElem? hs)
  unfold posterior
  rw [show (s.map fun p => (((choices words).filter fun cs => (cs[i]?).map (·.1) == some p.1).map
      (lineWeight score)).sum / ((choices words).map (lineWeight score)).sum) =
      (s.map fun p => (((choices words).filter fun cs => (cs[i]?).map (·.1) == some p.1).map
      (lineWeight score)).sum * (((choices words).map (lineWeight score)).sum)⁻¹) from
    List.map_congr_left fun p _ => div_eq_mul_inv _ _]
  rw [List.sum_map_mul_right]
  have : (s.map fun p => (((choices words).filter fun cs => (cs[i]?).map (·.1) == some p.1).map
      (lineWeight score)).sum).sum = ((choices words).map (lineWeight score)).sum := by
    simp only [sum_filter_ite]
    rw [sum_swap]
    congr 1
    refine List.map_congr_left fun cs hcs => ?_
    obtain ⟨p, hp, e⟩ := choices_at hs hcs
    have := sum_one_hot hsn (List.mem_map.2 ⟨p, hp, rfl⟩) (lineWeight score cs)
    rw [List.map_map] at this
    refine Eq.trans ?_ this
    congr 1
    refine List.map_congr_left fun q _ => ?_
    simp [e]
  rw [this, mul_inv_cancel₀ ht]

/-- C127: if the language model accepts no choice of candidates, there is no result: the check that the
composition is not empty ends the program. -/
theorem C127_none (score : List Str → K) (tiny : K) (k : Nat) (m : K) (words : List (Cands K))
    (h : ∀ cs ∈ choices words, score (cs.map (·.1)) = 0) :
    withLm false score tiny k m words = none := by
  unfold withLm collectCosts
  have : ((lmPaths false (numberLattice 1 words)).map (pathWeight score)).sum = 0 := by
    rw [lmPaths_total]
    refine List.sum_eq_zero fun x hx => ?_
    obtain ⟨cs, hcs, rfl⟩ := List.mem_map.1 hx
    simp [lineWeight, h cs hcs]
  simp [this]

/-! ## Word level -/

/-- The weight of one candidate alone. -/
def wordWeight (score : List Str → K) (p : Str × K) : K := p.2 * score [p.1]

theorem numberLattice_flatten_pair (n : Nat) (words : List (Cands K)) :
    (numberLattice n words).flatten.map LArc.pair = words.flatten := by
  induction words generalizing n with
  | nil => rfl
  | cons s ss ih => simp [numberLattice, numberSlot_pair, ih]

theorem numberLattice_flatten_nodup (n : Nat) (words : List (Cands K)) :
    ((numberLattice n words).flatten.map (·.id)) = List.range' n words.flatten.length := by
  have slot : ∀ (n : Nat) (s : Cands K), (numberSlot n s).map (·.id) = List.range' n s.length := by
    intro n s
    induction s generalizing n with
    | nil => rfl
    | cons p l ih => simp [numberSlot, ih, List.range'_succ]
  induction words generalizing n with
  | nil => rfl
  | cons s ss ih =>
    simp only [numberLattice, List.flatten_cons, List.map_append, slot, ih, List.length_append]
    have := List.range'_append (s := n) (m := s.length) (n := ss.flatten.length) (step := 1)
    simpa using this

theorem word_total (score : List Str → K) (n : Nat) (words : List (Cands K)) :
    ((lmPaths true (numberLattice n words)).map (pathWeight score)).sum =
      (words.flatten.map (wordWeight score)).sum := by
  rw [← numberLattice_flatten_pair n words, List.map_map]
  simp only [lmPaths, if_true, List.map_map]
  congr 1
  refine List.map_congr_left fun a _ => ?_
  simp [pathWeight, wordWeight, LArc.pair]

theorem sum_unique {α : Type} {l : List α} (g : α → Nat) (hn : (l.map g).Nodup) {a : α} (ha : a ∈ l) (f : α → K) :
    (l.map fun b => f b * (([b].filter fun c => g c == g a).length : K)).sum = f a := by
  induction l with
  | nil => simp at ha
  | cons b l ih =>
    rw [List.map_cons, List.nodup_cons] at hn
    rw [List.map_cons, List.sum_cons]
    rcases List.mem_cons.1 ha with rfl | ha'
    · have : (l.map fun b => f b * (([b].filter fun c => g c == g a).length : K)) = l.map fun _ => 0 := by
        refine List.map_congr_left fun c hc => ?_
        have hne : g c ≠ g a := fun e => hn.1 (List.mem_map.2 ⟨c, hc, e⟩)
        simp [hne]
      rw [this]
      simp
    · have hne : g b ≠ g a := fun e => hn.1 (List.mem_map.2 ⟨a, ha', e.symm⟩)
      rw [ih hn.2 ha']
      simp [hne]

theorem costOf_word (score : List Str → K) (tiny : K) {words : List (Cands K)} {a : LArc K}
    (ha : a ∈ (numberLattice 1 words).flatten) :
    costOf score tiny (lmPaths true (numberLattice 1 words)) a.id =
      if wordWeight score a.pair / (words.flatten.map (wordWeight score)).sum = 0 then tiny
      else wordWeight score a.pair / (words.flatten.map (wordWeight score)).sum := by
  have key : (((lmPaths true (numberLattice 1 words)).map fun p =>
      pathWeight score p * ((p.filter fun b => b.id == a.id).length : K)).sum) = wordWeight score a.pair := by
    simp only [lmPaths, if_true, List.map_map]
    have := sum_unique (l := (numberLattice 1 words).flatten) (·.id)
      (by rw [numberLattice_flatten_nodup]; exact List.nodup_range') ha (fun b => pathWeight score [b])
    simp only [Function.comp_def]
    rw [this]
    simp [pathWeight, wordWeight, LArc.pair]
  unfold costOf
  rw [key, word_total]

/-- C127: what the language model at word level gives: the final filter applied to each word, where the
cost of a candidate is its weight alone divided by the sum over all candidates of all words of the line.
The sum should be over the candidates of the word. -/
theorem C127_word_partial (score : List Str → K) (tiny : K) (k : Nat) (m : K) (words : List (Cands K))
    (ht : (words.flatten.map (wordWeight score)).sum ≠ 0) :
    ∃ out, withLm true score tiny k m words = some out ∧ out.length = words.length ∧
      ∀ (i : Nat) (s : Cands K), words[i]? = some s →
        out[i]? = some (finalFilter k m (s.map fun p =>
          (p.1, if wordWeight score p / (words.flatten.map (wordWeight score)).sum = 0 then tiny
            else wordWeight score p / (words.flatten.map (wordWeight score)).sum))) := by
  obtain ⟨out, h1, h2, h3⟩ := withLm_eq true score tiny k m words (by rw [word_total]; exact ht)
  refine ⟨out, h1, h2, fun i s hs => ?_⟩
  obtain ⟨b, hb, ho⟩ := h3 i s hs
  rw [ho]
  congr 2
  conv => rhs; rw [← numberSlot_pair b s]
  rw [List.map_map]
  refine List.map_congr_left fun a ha => ?_
  rw [costOf_word score tiny (List.mem_flatten.2 ⟨_, List.mem_of_getElem? hb, ha⟩)]
  rfl

/-- C127: so for a line of one word, word level and line level agree. -/
theorem C127_one_word (score : List Str → K) (tiny : K) (k : Nat) (m : K) (s : Cands K)
    (hd : (s.map (·.1)).Nodup) (ht : (s.map (wordWeight score)).sum ≠ 0) :
    withLm true score tiny k m [s] = withLm false score tiny k m [s] := by
  have hc : choices [s] = s.map fun p => [p] := by
    simp only [choices, List.map_cons, List.map_nil]
    clear hd ht
    induction s with
    | nil => rfl
    | cons p l ih => rw [List.flatMap_cons, ih]; rfl
  have hw : (choices [s]).map (lineWeight score) = s.map (wordWeight score) := by
    rw [hc, List.map_map]
    refine List.map_congr_left fun p _ => ?_
    simp [lineWeight, wordWeight]
  have hp : ∀ p ∈ s, posterior score [s] 0 p.1 = wordWeight score p / (s.map (wordWeight score)).sum := by
    intro p hp
    unfold posterior
    rw [hw]
    congr 1
    rw [sum_filter_ite, hc, List.map_map]
    have : (s.map ((fun cs : Cands K => if (cs[0]?.map (·.1) == some p.1) = true then lineWeight score cs else 0) ∘
        fun q => [q])) = s.map fun q => if p.1 = q.1 then wordWeight score p else 0 := by
      refine List.map_congr_left fun q hq => ?_
      simp only [Function.comp, List.getElem?_cons_zero, Option.map_some, beq_iff_eq, Option.some.injEq]
      by_cases e : q.1 = p.1
      · have : q = p := List.inj_on_of_nodup_map hd hq hp e
        subst this
        simp [lineWeight, wordWeight]
      · rw [if_neg e, if_neg (Ne.symm e)]
    rw [this]
    have h1 := sum_one_hot hd (List.mem_map.2 ⟨p, hp, rfl⟩) (wordWeight score p)
    rw [List.map_map] at h1
    exact h1
  obtain ⟨o1, a1, a2, a3⟩ := C127_word_partial score tiny k m [s] (by simpa using ht)
  obtain ⟨o2, b1, b2, b3⟩ := C127_posterior score tiny k m [s] (by simpa using hd) (by rw [hw]; exact ht)
  rw [a1, b1]
  congr 1
  have x1 := a3 0 s rfl
  have x2 := b3 0 s rfl
  rw [show (s.map fun p => (p.1, if posterior score [s] 0 p.1 = 0 then tiny else posterior score [s] 0 p.1)) =
    s.map fun p => (p.1, if wordWeight score p / ([s].flatten.map (wordWeight score)).sum = 0 then tiny
            else wordWeight score p / ([s].flatten.map (wordWeight score)).sum) from
    List.map_congr_left fun p h => by rw [hp p h]; simp] at x2
  rw [← x1] at x2
  match o1, o2, a2, b2 with
  | [u], [v], _, _ => simpa using x2.symm
end

/-- A model that accepts every word with the same weight. -/
def flatScore : List Str → Rat := fun _ => 1

/-- C127: at word level the costs are not posteriors at a word position: with a second word the only
candidate of the first one gets the cost of 1/2. -/
theorem C127_word_violated :
    withLm true flatScore 0 1 0 [[([1], 1)], [([2], 1)]] = some [[([1], 1/2)], [([2], 1/2)]] ∧
    withLm true flatScore 0 1 0 [[([1], 1)]] = some [[([1], 1)]] ∧
    withLm false flatScore 0 1 0 [[([1], 1)], [([2], 1)]] = some [[([1], 1)], [([2], 1)]] := by
  decide +kernel

/-- C127: the minimum posterior is compared with these costs: a candidate with 7/20 of its word
passes the minimum 3/10 with `k` = 2 alone, but not beside another word. -/
theorem C127_word_minimum_violated :
    withLm true flatScore 0 2 (3/10) [[([1], 2/5), ([2], 7/20), ([3], 1/4)]] =
      some [[([1], 2/5), ([2], 7/20)]] ∧
    withLm true flatScore 0 2 (3/10) [[([1], 2/5), ([2], 7/20), ([3], 1/4)], [([2], 1)]] =
      some [[([1], 1/5)], [([2], 1/2)]] := by
  decide +kernel

/-- C127: an empty line ends the program at word level, while it has an empty result at line level. -/
theorem C127_empty_violated {K : Type} [Field K] [LinearOrder K] (score : List Str → K) (tiny : K) (k : Nat)
    (m : K) : withLm true score tiny k m [] = none ∧
      (score [] ≠ 0 → withLm false score tiny k m [] = some []) := by
  constructor
  · simp [withLm, collectCosts, lmPaths, numberLattice]
  · intro h
    simp [withLm, collectCosts, lmPaths, numberLattice, paths, pathWeight, h]

/-- A model in which the second of two words agrees with the first. -/
def agreeScore : List Str → Rat
  | [a, b] => if a = b then 3/4 else 1/4
  | _ => 0

-- Non-vacuity of `C127_posterior`, `C127_best` and `C127_sum`: the better candidate of the second word
-- changes by the first.
example : withLm false agreeScore 0 1 0 [[([1], 9/10), ([2], 1/10)], [([1], 2/5), ([2], 3/5)]] =
    some [[([1], 81/92)], [([1], 14/23)]] := by decide +kernel
example : ((choices [[([1], (9/10 : Rat)), ([2], 1/10)], [([1], 2/5), ([2], 3/5)]]).map
    (lineWeight agreeScore)).sum ≠ 0 := by decide +kernel
example : withLm false agreeScore 0 5 0 [[([1], 1/2), ([2], 1/2)]] = none := by decide +kernel

end Nisaba.Props
