import Verif.Lemmas.PairLMRun
import Verif.Props.ThreadPool
import Mathlib.Algebra.Order.Field.Rat
import Mathlib.Tactic.NormNum
import Mathlib.Tactic.Linarith
/-!
# The pair language model decoder (C61-C66)
-/
namespace Nisaba.Props
open Nisaba.PairLM

/-! ## C62: segmentation at the coverage of the model -/

namespace Seg

/-- The decomposition of a word that a reader expects: parts that are not empty, all of whose
characters are covered or none is, and neighbouring parts differ. -/
structure IsRuns (covered : Nat → Bool) (w : Str) (parts : List Str) : Prop where
  whole : parts.flatten = w
  part : ∀ s ∈ parts, s ≠ [] ∧ ∃ b, ∀ c ∈ s, covered c = b
  alternate : parts.IsChain fun s t => ∀ c ∈ s, ∀ d ∈ t, covered c ≠ covered d

theorem loop_spec (covered : Nat → Bool) : ∀ (cs tok : Str) (last : Bool), tok ≠ [] →
    (∀ c ∈ tok, covered c = last) →
    (segmentLoop covered tok last cs).flatten = tok ++ cs ∧
    (∀ s ∈ segmentLoop covered tok last cs, s ≠ []) ∧
    (segmentLoop covered tok last cs).IsChain (fun s t => ∀ c ∈ s, ∀ d ∈ t, covered c ≠ covered d) ∧
    ∃ r l, segmentLoop covered tok last cs = (tok ++ r) :: l ∧ ∀ c ∈ r, covered c = last
  | [], tok, last, h1, h2 => by
    simp only [segmentLoop]
    exact ⟨by simp, by simpa using h1, by simp, [], [], by simp, by simp⟩
  | c :: cs, tok, last, h1, h2 => by
    unfold segmentLoop
    split
    · rename_i hc
      have hc : covered c ≠ last := by simpa using hc
      obtain ⟨a1, a2, a3, r, l, a4, a5⟩ := loop_spec covered cs [c] (covered c) (by simp) (by simp)
      refine ⟨by simp [a1], ?_, ?_, [], _, by rw [List.append_nil], by simp⟩
      · intro s hs
        rcases List.mem_cons.1 hs with rfl | hs
        · exact h1
        · exact a2 s hs
      · rw [a4] at a3 ⊢
        refine List.IsChain.cons_cons ?_ a3
        intro x hx y hy
        rw [h2 x hx]
        rcases List.mem_append.1 hy with hy | hy
        · rw [List.mem_singleton.1 hy]; exact hc.symm
        · rw [a5 y hy]; exact hc.symm
    · rename_i hc
      have hc : covered c = last := by simpa using hc
      obtain ⟨a1, a2, a3, r, l, a4, a5⟩ := loop_spec covered cs (tok ++ [c]) (covered c) (by simp) (by
        intro x hx
        rcases List.mem_append.1 hx with hx | hx
        · rw [h2 x hx, hc]
        · rw [List.mem_singleton.1 hx])
      refine ⟨by simp [a1], a2, a3, c :: r, l, by simp [a4], ?_⟩
      intro x hx
      rcases List.mem_cons.1 hx with rfl | hx
      · exact hc
      · rw [a5 x hx, hc]

/-- Runs are determined by the word. -/
theorem runs_unique {covered : Nat → Bool} : ∀ {w : Str} {p q : List Str},
    IsRuns covered w p → IsRuns covered w q → p = q := by
  intro w p
  induction p generalizing w with
  | nil =>
    intro q hp hq
    cases q with
    | nil => rfl
    | cons s q =>
      have := hp.whole.trans hq.whole.symm
      simp at this
      exact absurd this.1 (hq.part s (by simp)).1
  | cons s p ih =>
    intro q hp hq
    cases q with
    | nil =>
      have := hp.whole.trans hq.whole.symm
      simp at this
      exact absurd this.1 (hp.part s (by simp)).1
    | cons t q =>
      have tail : ∀ {s : Str} {p : List Str}, IsRuns covered w (s :: p) → IsRuns covered p.flatten p := by
        intro s p h
        exact ⟨rfl, fun x hx => h.part x (List.mem_cons_of_mem _ hx), List.IsChain.of_cons h.alternate⟩
      -- the first part cannot be a proper prefix of the other one
      have nopre : ∀ {s t : Str} {p q : List Str}, IsRuns covered w (s :: p) →
          IsRuns covered w (t :: q) → ∀ r, t = s ++ r → p.flatten = r ++ q.flatten → r = [] := by
        intro s t p q hp hq r ht hr
        cases r with
        | nil => rfl
        | cons a r =>
          exfalso
          cases p with
          | nil => simp at hr
          | cons u p =>
            obtain ⟨hu, _⟩ := hp.part u (by simp)
            cases u with
            | nil => exact hu rfl
            | cons b u =>
              simp only [List.flatten_cons, List.cons_append, List.cons.injEq] at hr
              obtain ⟨hs, _⟩ := hp.part s (by simp)
              cases s with
              | nil => exact hs rfl
              | cons d s =>
                have hne := (List.isChain_cons_cons.1 hp.alternate).1 d (by simp) b (by simp)
                obtain ⟨_, v, hv⟩ := hq.part t (by simp)
                subst ht
                exact hne ((hv d (by simp)).trans (by rw [hr.1, hv a (by simp)]))
      have e := hp.whole.trans hq.whole.symm
      simp only [List.flatten_cons] at e
      have hst : s = t ∧ p.flatten = q.flatten := by
        rcases List.append_eq_append_iff.1 e with ⟨r, h1, h2⟩ | ⟨r, h1, h2⟩
        · have := nopre hp hq r h1 h2
          subst this
          simp at h1 h2
          exact ⟨h1.symm, h2⟩
        · have := nopre hq hp r h1 h2
          subst this
          simp at h1 h2
          exact ⟨h1, h2.symm⟩
      have h1 := tail hp
      rw [hst.2] at h1
      rw [hst.1, ih h1 (tail hq)]

end Seg
open Seg

/-- C62: a word whose characters are not all covered and not all uncovered is cut exactly into its
maximal runs; any other word is not cut. -/
theorem C62_segments (covered : Nat → Bool) (w : Str) (parts : List Str) :
    segmentCovered covered w = parts ↔
      ((∃ b, ∀ c ∈ w, covered c = b) ∧ parts = []) ∨
      ((¬ ∃ b, ∀ c ∈ w, covered c = b) ∧ IsRuns covered w parts) := by
  by_cases hu : ∃ b, ∀ c ∈ w, covered c = b
  · rw [segmentCovered_uniform hu]
    simp only [hu, true_and, not_true_eq_false, false_and, or_false]
    exact eq_comm
  · simp only [hu, false_and, not_false_eq_true, true_and, false_or]
    have key : IsRuns covered w (segmentCovered covered w) := by
      cases w with
      | nil => exact absurd ⟨true, by simp⟩ hu
      | cons c cs =>
        have hn : segmentCovered covered (c :: cs) = segmentLoop covered [c] (covered c) cs := by
          unfold segmentCovered
          simp only
          rw [if_neg]
          rintro (h | h)
          · refine hu ⟨true, fun x hx => ?_⟩
            have := List.filter_eq_nil_iff.1 (List.length_eq_zero_iff.1 h) x hx
            simpa using this
          · refine hu ⟨false, fun x hx => ?_⟩
            have := List.length_filter_eq_length_iff.1 h x hx
            simpa using this
        obtain ⟨h1, h2, h3, _⟩ := loop_spec covered cs [c] (covered c) (by simp) (by simp)
        rw [hn]
        refine ⟨by simpa using h1, fun s hs => ⟨h2 s hs, ?_⟩, h3⟩
        exact segmentLoop_uniform _ _ _ (by simp) s hs
    constructor
    · rintro rfl; exact key
    · exact fun h => runs_unique key h

example : segmentCovered (fun c => c < 10) [1, 2, 30, 4] = [[1, 2], [30], [4]] := by decide

/-! ## C63: the final filter -/

section Final
variable {K : Type} [Field K] [LinearOrder K]

theorem insertScore_perm (p : K × Nat) : ∀ l, (insertScore p l).Perm (p :: l)
  | [] => .refl _
  | q :: l => by
    unfold insertScore
    split
    · exact .refl _
    · exact ((insertScore_perm p l).cons q).trans (.swap ..)

theorem sortScores_perm : ∀ l : List (K × Nat), (sortScores l).Perm l
  | [] => .refl _
  | p :: l => (insertScore_perm p _).trans ((sortScores_perm l).cons p)

theorem insertScore_sorted (p : K × Nat) : ∀ {l}, l.Pairwise (fun a b : K × Nat => b.1 ≤ a.1) →
    (insertScore p l).Pairwise (fun a b => b.1 ≤ a.1)
  | [], _ => by simp [insertScore]
  | q :: l, h => by
    have h' := List.pairwise_cons.1 h
    unfold insertScore
    split
    · rename_i hq
      refine List.pairwise_cons.2 ⟨fun x hx => ?_, h⟩
      have hqp : q.1 ≤ p.1 := by
        rcases hq with hq | hq
        · exact hq.le
        · exact hq.1.le
      rcases List.mem_cons.1 hx with rfl | hx
      · exact hqp
      · exact (h'.1 x hx).trans hqp
    · rename_i hq
      have hpq : p.1 ≤ q.1 := not_lt.1 fun h => hq (.inl h)
      refine List.pairwise_cons.2 ⟨fun x hx => ?_, insertScore_sorted p h'.2⟩
      rcases List.mem_cons.1 ((insertScore_perm p l).mem_iff.1 hx) with rfl | hx
      · exact hpq
      · exact h'.1 x hx

theorem sortScores_sorted : ∀ l : List (K × Nat),
    (sortScores l).Pairwise (fun a b => b.1 ≤ a.1)
  | [] => .nil
  | p :: l => insertScore_sorted p (sortScores_sorted l)

/-- On sorted scores a prefix is kept. -/
theorem keepLoop_take {m : K} : ∀ (k : Nat) (first : Bool) (l : List (K × Nat)),
    l.Pairwise (fun a b => b.1 ≤ a.1) →
    ∃ n, n ≤ k ∧ n ≤ l.length ∧ keepLoop m k first l = (l.take n).map (·.2) ∧
      (first = true → 0 < k → l ≠ [] → 0 < n) ∧
      (n = k ∨ ∀ p ∈ l.drop n, p.1 < m) ∧ (m ≤ 0 → n = min k l.length) ∧
      (∀ p ∈ (l.take n).drop (if first then 1 else 0), m ≤ 0 ∨ m ≤ p.1)
  | 0, first, l, _ => ⟨0, by simp, by simp, by simp [keepLoop], by simp, by simp, by simp, by simp⟩
  | k + 1, first, [], _ => ⟨0, by simp, by simp, by simp [keepLoop], by simp, by simp, by simp, by simp⟩
  | k + 1, first, p :: l, h => by
    have h' := List.pairwise_cons.1 h
    obtain ⟨n, b1, b2, b3, b4, b5, b6, b7⟩ := keepLoop_take (m := m) k false l h'.2
    unfold keepLoop
    split
    · rename_i hc
      refine ⟨n + 1, by omega, by simpa using b2, by simp [b3], by simp, ?_, ?_, ?_⟩
      · rcases b5 with b5 | b5
        · exact .inl (by omega)
        · exact .inr (by simpa using b5)
      · intro hm
        have := b6 hm
        simp only [List.length_cons]
        omega
      · cases first with
        | true => simpa using b7
        | false =>
          intro q hq
          simp only [Bool.false_eq_true, if_false, List.drop_zero, List.take_succ_cons,
            List.mem_cons] at hq
          rcases hq with rfl | hq
          · simpa using hc
          · exact b7 q (by simpa using hq)
    · rename_i hc
      simp only [not_or, not_le, Bool.not_eq_true] at hc
      have hall : ∀ q ∈ p :: l, q.1 < m := by
        intro q hq
        rcases List.mem_cons.1 hq with rfl | hq
        · exact hc.2.2
        · exact (h'.1 q hq).trans_lt hc.2.2
      have hn : n = 0 := by
        rcases Nat.eq_zero_or_pos n with h | h
        · exact h
        · exfalso
          cases l with
          | nil => simp at b2; omega
          | cons q l =>
            have := b7 q (by cases n with | zero => omega | succ n => simp)
            rcases this with h | h
            · exact absurd h (not_le.2 hc.2.1)
            · exact absurd h (not_le.2 (hall q (by simp)))
      refine ⟨0, by omega, by omega, by simp [b3, hn], by simp [hc.1], .inr (by simpa using hall), ?_, by simp⟩
      intro hm
      exact absurd hm (not_le.2 hc.2.1)

/-- C63: what the final filter keeps at a word position with more than `k` candidates: a sublist of
the candidates such that no dropped candidate is better than a kept one; at most `k`, and at least one;
exactly `k` without a threshold; every kept one reaches the threshold or is a best one; a candidate
that reaches the threshold is dropped only if `k` are kept. -/
theorem C63_filter_partial (k : Nat) (m : K) (arcs : Cands K) (hk : k < arcs.length) :
    (finalFilter k m arcs).Sublist arcs ∧
    (finalFilter k m arcs).length ≤ k ∧
    (0 < k → finalFilter k m arcs ≠ []) ∧
    (m ≤ 0 → (finalFilter k m arcs).length = k) ∧
    (∀ p ∈ finalFilter k m arcs, m ≤ p.2 ∨ m ≤ 0 ∨ ∀ q ∈ arcs, q.2 ≤ p.2) ∧
    ∃ dropped, (finalFilter k m arcs ++ dropped).Perm arcs ∧
      (∀ p ∈ finalFilter k m arcs, ∀ q ∈ dropped, q.2 ≤ p.2) ∧
      (∀ q ∈ dropped, m ≤ q.2 → (finalFilter k m arcs).length = k) := by
  set S := sortScores (arcs.zipIdx.map fun p => (p.1.2, p.2)) with hS
  have hperm : S.Perm (arcs.zipIdx.map fun p => (p.1.2, p.2)) := sortScores_perm _
  have hsorted : S.Pairwise (fun a b => b.1 ≤ a.1) := sortScores_sorted _
  obtain ⟨n, n1, n2, n3, n4, n5, n6, n7⟩ := keepLoop_take (m := m) k true S hsorted
  have hlen : S.length = arcs.length := by simpa using hperm.length_eq
  set keep := (S.take n).map (·.2) with hkeep
  have hf : finalFilter k m arcs = (arcs.zipIdx.filter fun p => keep.contains p.2).map (·.1) := by
    unfold finalFilter
    rw [if_pos hk]
    simp only [arcScoreThresh, ← hS, n3]
  have hidx : (S.map (·.2)).Perm (List.range arcs.length) := by
    refine (hperm.map _).trans ?_
    rw [List.map_map, show ((fun x : K × Nat => x.2) ∘ fun p : (Str × K) × Nat => (p.1.2, p.2)) = Prod.snd from rfl,
      List.zipIdx_map_snd, List.range_eq_range']
  have hnodup : (S.map (·.2)).Nodup := hidx.nodup_iff.2 List.nodup_range
  have hkn : keep.Nodup := by
    rw [hkeep, List.map_take]
    exact hnodup.sublist (List.take_sublist ..)
  -- a kept arc is among the first scores
  have kept_mem : ∀ p i, (p, i) ∈ arcs.zipIdx → i ∈ keep → (p.2, i) ∈ S.take n := by
    intro p i hp hi
    obtain ⟨⟨x, j⟩, hx, rfl⟩ := List.mem_map.1 hi
    obtain ⟨⟨q, j'⟩, hq, e⟩ := List.mem_map.1 (hperm.mem_iff.1 (List.mem_of_mem_take hx))
    simp only [Prod.mk.injEq] at e
    obtain ⟨rfl, rfl⟩ := e
    have e1 := (List.mem_zipIdx_iff_getElem?.1 hp)
    have e2 := (List.mem_zipIdx_iff_getElem?.1 hq)
    simp only at e1 e2
    rw [e1] at e2
    cases e2
    exact hx
  have dropped_mem : ∀ p i, (p, i) ∈ arcs.zipIdx → i ∉ keep → (p.2, i) ∈ S.drop n := by
    intro p i hp hi
    have : (p.2, i) ∈ S := hperm.mem_iff.2 (List.mem_map.2 ⟨(p, i), hp, rfl⟩)
    rw [← List.take_append_drop n S] at this
    rcases List.mem_append.1 this with h | h
    · exact absurd (List.mem_map.2 ⟨_, h, rfl⟩) hi
    · exact h
  have hklen : (finalFilter k m arcs).length = n := by
    rw [hf, List.length_map]
    have : ((arcs.zipIdx.filter fun p => keep.contains p.2).map (·.2)).Perm keep := by
      refine (List.perm_ext_iff_of_nodup ?_ hkn).2 ?_
      · refine List.Nodup.sublist (List.Sublist.map _ List.filter_sublist) ?_
        rw [List.zipIdx_map_snd]
        exact List.nodup_range'
      · intro i
        simp only [List.mem_map, List.mem_filter, List.contains_iff_mem]
        constructor
        · rintro ⟨p, ⟨_, h⟩, rfl⟩
          exact h
        · intro hi
          obtain ⟨⟨x, j⟩, hx, rfl⟩ := List.mem_map.1 (hkeep ▸ hi)
          obtain ⟨q, hq, e⟩ := List.mem_map.1 (hperm.mem_iff.1 (List.mem_of_mem_take hx))
          simp only [Prod.mk.injEq] at e
          refine ⟨q, ⟨hq, ?_⟩, e.2⟩
          rw [e.2]
          exact hi
    have h := this.length_eq
    rw [List.length_map] at h
    rw [h, hkeep, List.length_map, List.length_take]
    omega
  have split_le : ∀ x ∈ S.take n, ∀ y ∈ S.drop n, y.1 ≤ x.1 := by
    rw [← List.take_append_drop n S] at hsorted
    exact (List.pairwise_append.1 hsorted).2.2
  have kept_of : ∀ p ∈ finalFilter k m arcs, ∃ i, (p.2, i) ∈ S.take n := by
    intro p hp
    rw [hf] at hp
    obtain ⟨⟨q, i⟩, hq, rfl⟩ := List.mem_map.1 hp
    obtain ⟨h1, h2⟩ := List.mem_filter.1 hq
    exact ⟨i, kept_mem q i h1 (by simpa using h2)⟩
  refine ⟨?_, by omega, ?_, ?_, ?_, (arcs.zipIdx.filter fun p => !keep.contains p.2).map (·.1), ?_, ?_, ?_⟩
  · rw [hf]
    have := List.Sublist.map Prod.fst (List.filter_sublist (l := arcs.zipIdx) (p := fun p => keep.contains p.2))
    rwa [List.zipIdx_map_fst] at this
  · intro hk0 e
    have : 0 < n := n4 rfl hk0 (by intro e; rw [e] at hlen; simp at hlen; omega)
    rw [e] at hklen
    simp at hklen
    omega
  · intro hm
    rw [hklen, n6 hm, hlen]
    omega
  · intro p hp
    obtain ⟨i, hi⟩ := kept_of p hp
    cases hT : S.take n with
    | nil => rw [hT] at hi; simp at hi
    | cons x T =>
      rw [hT] at hi
      rcases List.mem_cons.1 hi with e | hi
      · right; right
        intro q hq
        obtain ⟨j, hj⟩ := List.mem_iff_getElem?.1 hq
        have hqS : (q.2, j) ∈ S :=
          hperm.mem_iff.2 (List.mem_map.2 ⟨(q, j), List.mem_zipIdx_iff_getElem?.2 hj, rfl⟩)
        have hS' : S = x :: (T ++ S.drop n) := by
          conv_lhs => rw [← List.take_append_drop n S, hT]
          rfl
        rw [hS'] at hqS hsorted
        rcases List.mem_cons.1 hqS with h | h
        · rw [show q.2 = x.1 by rw [← h], show p.2 = x.1 by rw [← e]]
        · have := (List.pairwise_cons.1 hsorted).1 _ h
          rw [show p.2 = x.1 by rw [← e]]
          exact this
      · have := n7 _ (by rw [hT]; simpa using hi)
        rcases this with h | h
        · exact .inr (.inl h)
        · exact .inl h
  · rw [hf, ← List.map_append]
    have := (List.filter_append_perm (fun p : (Str × K) × Nat => keep.contains p.2) arcs.zipIdx).map Prod.fst
    rwa [List.zipIdx_map_fst] at this
  · intro p hp q hq
    obtain ⟨i, hi⟩ := kept_of p hp
    obtain ⟨⟨q, j⟩, hq', rfl⟩ := List.mem_map.1 hq
    obtain ⟨h1, h2⟩ := List.mem_filter.1 hq'
    exact split_le _ hi _ (dropped_mem q j h1 (by simpa using h2))
  · intro q hq hm
    obtain ⟨⟨q, j⟩, hq', rfl⟩ := List.mem_map.1 hq
    obtain ⟨h1, h2⟩ := List.mem_filter.1 hq'
    have hd := dropped_mem q j h1 (by simpa using h2)
    rcases n5 with h | h
    · rw [hklen, h]
    · exact absurd hm (not_le.2 (h _ hd))

/-- C63: a position with at most `k` candidates is not filtered at all, whatever the threshold. -/
theorem C63_not_filtered (k : Nat) (m : K) (arcs : Cands K) (hk : arcs.length ≤ k) :
    finalFilter k m arcs = arcs := by
  unfold finalFilter
  rw [if_neg (by omega)]

end Final

/-- C63: the minimum posterior is not guaranteed: with two candidates, `k` = 2 and the minimum 1/2 the
candidate with posterior 1/10 stays, although with `k` = 1 or with a third candidate it would go. -/
theorem C63_minimum_not_applied :
    ∃ (k : Nat) (m : Rat) (arcs : Cands Rat), 0 < m ∧ ∃ p ∈ finalFilter k m arcs, p.2 < m ∧
      ∃ q ∈ arcs, p.2 < q.2 :=
  ⟨2, 1/2, [([1], 9/10), ([2], 1/10)], by norm_num, ([2], 1/10), by
    rw [C63_not_filtered _ _ _ (by simp)]; simp, by norm_num, ([1], 9/10), by simp, by norm_num⟩

example : finalFilter 2 (1/4 : Rat) [([1], 1/10), ([2], 1/2), ([3], 2/5)] =
    [([2], 1/2), ([3], 2/5)] := by decide +kernel
example : finalFilter 2 (9/20 : Rat) [([1], 1/10), ([2], 1/2), ([3], 2/5)] = [([2], 1/2)] := by
  decide +kernel

/-! ## C62: the parts are put together again -/

section Joined
variable {K : Type} [Field K] [LinearOrder K]

theorem insertDesc_sorted (p : Str × K) : ∀ {l}, l.Pairwise (fun a b : Str × K => b.2 ≤ a.2) →
    (insertDesc p l).Pairwise (fun a b => b.2 ≤ a.2)
  | [], _ => by simp [insertDesc]
  | q :: l, h => by
    have h' := List.pairwise_cons.1 h
    unfold insertDesc
    split
    · rename_i hq
      refine List.pairwise_cons.2 ⟨fun x hx => ?_, h⟩
      rcases List.mem_cons.1 hx with rfl | hx
      · exact hq.le
      · exact (h'.1 x hx).trans hq.le
    · rename_i hq
      refine List.pairwise_cons.2 ⟨fun x hx => ?_, insertDesc_sorted p h'.2⟩
      rcases List.mem_cons.1 ((insertDesc_perm p l).mem_iff.1 hx) with rfl | hx
      · exact not_lt.1 hq
      · exact h'.1 x hx

theorem sortDesc_sorted : ∀ l : Cands K, (sortDesc l).Pairwise (fun a b => b.2 ≤ a.2)
  | [] => .nil
  | p :: l => insertDesc_sorted p (sortDesc_sorted l)

/-- One candidate of every part: the parts of the output and their weights. -/
inductive Choice : List (Cands K) → List (Str × K) → Prop
  | nil : Choice [] []
  | cons {c cs p ps} : p ∈ c → Choice cs ps → Choice (c :: cs) (p :: ps)

/-- C62: the candidates of a word that was cut are concatenations of one candidate of every part with
the product of the weights, and they are the best `k` of all of these. -/
theorem C62_joined (k : Nat) (cs : List (Cands K)) :
    (∀ y p, (y, p) ∈ concatAll cs ↔
      ∃ ps, Choice cs ps ∧ y = (ps.map (·.1)).flatten ∧ p = (ps.map (·.2)).prod) ∧
    (concatBest k cs).length = min k ((cs.map List.length).prod) ∧
    ∃ rest, (concatBest k cs ++ rest).Perm (concatAll cs) ∧
      ∀ p ∈ concatBest k cs, ∀ q ∈ rest, q.2 ≤ p.2 := by
  refine ⟨?_, ?_, (sortDesc (concatAll cs)).drop k, ?_, ?_⟩
  · induction cs with
    | nil =>
      intro y p
      simp only [concatAll, List.mem_singleton, Prod.mk.injEq]
      constructor
      · rintro ⟨rfl, rfl⟩
        exact ⟨[], .nil, rfl, rfl⟩
      · rintro ⟨ps, h, rfl, rfl⟩
        cases h
        exact ⟨rfl, rfl⟩
    | cons c cs ih =>
      intro y p
      simp only [concatAll, List.mem_flatMap, List.mem_map, Prod.mk.injEq]
      constructor
      · rintro ⟨a, ha, ⟨z, q⟩, hb, rfl, rfl⟩
        obtain ⟨ps, h, rfl, rfl⟩ := (ih z q).1 hb
        exact ⟨a :: ps, .cons ha h, by simp, by simp⟩
      · rintro ⟨ps, h, rfl, rfl⟩
        cases h with
        | cons ha h => exact ⟨_, ha, (_, _), (ih _ _).2 ⟨_, h, rfl, rfl⟩, by simp, by simp⟩
  · have : (concatAll cs).length = (cs.map List.length).prod := by
      induction cs with
      | nil => rfl
      | cons c cs ih => simp [concatAll, List.length_flatMap, ih]
    rw [concatBest, List.length_take, (sortDesc_perm _).length_eq, this]
  · rw [concatBest, List.take_append_drop]
    exact sortDesc_perm _
  · have := sortDesc_sorted (concatAll cs)
    rw [← List.take_append_drop k (sortDesc (concatAll cs))] at this
    exact (List.pairwise_append.1 this).2.2

end Joined

example : concatBest 2 [[([1], (1/2 : Rat)), ([2], 1/4)], [([3], 1)], [([4], 1/3), ([5], 1/2)]] =
    [([1, 3, 5], 1/4), ([1, 3, 4], 1/6)] := by decide +kernel

end Nisaba.Props
