import Verif.Model.Grm2Best
import Verif.Lemmas.Grm2
/-! # Least costs and sorting for `Verif.Model.Grm2Best` -/
namespace Nisaba.Grm2

variable {K : Type} [AddMonoid K] [LinearOrder K]

/-- `c` is the least cost of `y` as an output of `x`. -/
def Least (fs : List (Str → Lat K)) (x y : Str) (c : K) : Prop :=
  Derives fs x y c ∧ ∀ d, Derives fs x y d → c ≤ d

omit [AddMonoid K] in
theorem mem_best (l : Lat K) (y : Str) (c : K) :
    (y, c) ∈ best l ↔ (y, c) ∈ l ∧ ∀ d, (y, d) ∈ l → c ≤ d := by
  unfold best
  rw [List.mem_filterMap]
  constructor
  · rintro ⟨z, hz, h⟩
    rw [Option.map_eq_some_iff] at h
    obtain ⟨d, h, e⟩ := h
    injection e with e1 e2
    subst e1 e2
    rcases leastCost_spec (l.filter fun p => p.1 = z) with ⟨_, hn⟩ | ⟨p, hp, hs, hl⟩
    · rw [hn] at h; cases h
    · rw [hs] at h
      injection h with h
      rw [List.mem_filter] at hp
      have e : p = (z, d) := Prod.ext (by simpa using hp.2) h
      subst e
      exact ⟨hp.1, fun b hb => hl (z, b) (List.mem_filter.2 ⟨hb, by simp⟩)⟩
  · rintro ⟨h, hl⟩
    refine ⟨y, (mem_distinct l y).2 ⟨c, h⟩, ?_⟩
    have hm : (y, c) ∈ l.filter fun p => p.1 = y := List.mem_filter.2 ⟨h, by simp⟩
    rw [(leastCost_iff hm).2 ?_]
    · rfl
    · rintro ⟨z, d⟩ hq
      rw [List.mem_filter] at hq
      have : z = y := by simpa using hq.2
      subst this
      exact hl d hq.1

omit [AddMonoid K] in
theorem best_strings (l : Lat K) : (best l).map (·.1) = distinct l := by
  have key : ∀ ys : List Str, (∀ y ∈ ys, ∃ c, (y, c) ∈ l) →
      (ys.filterMap fun y => (leastCost (l.filter fun p => p.1 = y)).map fun c => (y, c)).map (·.1) = ys := by
    intro ys
    induction ys with
    | nil => intro _; rfl
    | cons y ys ih =>
      intro h
      obtain ⟨c, hc⟩ := h y (by simp)
      have hm : (y, c) ∈ l.filter fun p => p.1 = y := List.mem_filter.2 ⟨hc, by simp⟩
      rcases leastCost_spec (l.filter fun p => p.1 = y) with ⟨hn, _⟩ | ⟨p, _, hs, _⟩
      · rw [hn] at hm; cases hm
      · rw [List.filterMap_cons, hs]
        simp only [Option.map_some, List.map_cons, List.cons.injEq, true_and]
        exact ih fun z hz => h z (by simp [hz])
  exact key _ fun y hy => (mem_distinct l y).1 hy

omit [AddMonoid K] in
theorem best_nodup (l : Lat K) : ((best l).map (·.1)).Nodup := by
  rw [best_strings]; exact nodup_distinct l

omit [AddMonoid K] in
theorem perm_insertCost (p : Str × K) (l : Lat K) : (insertCost p l).Perm (p :: l) := by
  induction l with
  | nil => exact .refl _
  | cons q l ih =>
    unfold insertCost
    split
    · exact .refl _
    · exact (ih.cons q).trans (.swap p q l)

omit [AddMonoid K] in
theorem perm_sortCost (l : Lat K) : (sortCost l).Perm l := by
  induction l with
  | nil => exact .refl _
  | cons p l ih => exact (perm_insertCost p _).trans (ih.cons p)

omit [AddMonoid K] in
theorem insertCost_sorted (p : Str × K) {l : Lat K} (h : l.Pairwise fun a b => a.2 ≤ b.2) :
    (insertCost p l).Pairwise fun a b => a.2 ≤ b.2 := by
  induction l with
  | nil => simp [insertCost]
  | cons q l ih =>
    have h' := h
    rw [List.pairwise_cons] at h
    unfold insertCost
    split
    · rename_i hpq
      refine List.pairwise_cons.2 ⟨?_, h'⟩
      intro a ha
      rcases List.mem_cons.1 ha with rfl | ha
      · exact hpq
      · exact le_trans hpq (h.1 a ha)
    · rename_i hpq
      refine List.pairwise_cons.2 ⟨?_, ih h.2⟩
      intro a ha
      rcases List.mem_cons.1 ((perm_insertCost p l).mem_iff.1 ha) with rfl | ha
      · exact le_of_lt (not_le.1 hpq)
      · exact h.1 a ha

omit [AddMonoid K] in
theorem sortCost_sorted (l : Lat K) : (sortCost l).Pairwise fun a b => a.2 ≤ b.2 := by
  induction l with
  | nil => exact .nil
  | cons p l ih => exact insertCost_sorted p ih

/-- What the best `n` are: different strings with their least costs in order, at most `n`; a string that is
left out costs at least as much as each, and then there are `n`. -/
structure BestN (fs : List (Str → Lat K)) (x : Str) (n : Nat) (ys : Lat K) : Prop where
  nodup : (ys.map (·.1)).Nodup
  least : ∀ y c, (y, c) ∈ ys → Least fs x y c
  le : ys.length ≤ n
  sorted : ys.Pairwise fun a b => a.2 ≤ b.2
  rest : ∀ z d, Derives fs x z d → (∃ c, (z, c) ∈ ys) ∨ (ys.length = n ∧ ∀ p ∈ ys, p.2 ≤ d)

theorem least_iff (fs : List (Str → Lat K)) (x y : Str) (c : K) :
    (y, c) ∈ best (full fs [(x, 0)]) ↔ Least fs x y c := by
  rw [mem_best]
  unfold Least
  simp only [mem_full_one]

theorem shortest_bestN (fs : List (Str → Lat K)) (x : Str) (n : Int) :
    BestN fs x n.toNat (latticeToShortest n (full fs [(x, 0)])) := by
  have hp := perm_sortCost (best (full fs [(x, 0)]))
  have hs := sortCost_sorted (best (full fs [(x, 0)]))
  have hn : ((sortCost (best (full fs [(x, 0)]))).map (·.1)).Nodup :=
    (hp.map _).nodup_iff.2 (best_nodup _)
  have hm : ∀ y c, (y, c) ∈ sortCost (best (full fs [(x, 0)])) ↔ Least fs x y c := fun y c =>
    hp.mem_iff.trans (least_iff fs x y c)
  unfold latticeToShortest
  generalize sortCost (best (full fs [(x, 0)])) = L at hs hn hm
  refine ⟨?_, fun y c h => (hm y c).1 (List.mem_of_mem_take h), by simp [Nat.min_le_left], ?_, ?_⟩
  · rw [List.map_take]
    exact hn.sublist (List.take_sublist _ _)
  · exact hs.sublist (List.take_sublist _ _)
  · intro z d hd
    obtain ⟨c, hc⟩ : ∃ c, (z, c) ∈ best (full fs [(x, 0)]) := by
      have : z ∈ (best (full fs [(x, 0)])).map (·.1) := by
        rw [best_strings, mem_distinct]
        exact ⟨d, (mem_full_one fs x z d).2 hd⟩
      obtain ⟨⟨_, c⟩, hc, rfl⟩ := List.mem_map.1 this
      exact ⟨c, hc⟩
    have hl := (least_iff fs x z c).1 hc
    have hcL := (hm z c).2 hl
    rw [← List.take_append_drop n.toNat L] at hcL hs
    rcases List.mem_append.1 hcL with h | h
    · exact .inl ⟨c, h⟩
    · right
      have hlen : n.toNat ≤ L.length := by
        by_contra hlt
        rw [List.drop_of_length_le (by omega)] at h
        cases h
      refine ⟨by simp [hlen], fun p hpm => ?_⟩
      exact le_trans ((List.pairwise_append.1 hs).2.2 p hpm (z, c) h) (hl.2 d hd)

end Nisaba.Grm2
