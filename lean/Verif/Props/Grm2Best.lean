import Verif.Lemmas.Grm2Best
import Verif.Props.Grm2
/-!
# C133: weights, the best `n` rewrites, the rewrite manager and debug strings

`Derives`, `Means` and `Optimal` as in C70; `Least fs x y c`: `c` is the least cost of the output `y` of `x`;
`BestN`: see Lemmas/Grm2Best.lean.
-/
namespace Nisaba.Props
open Grm2

variable {K : Type} [AddMonoid K] [LinearOrder K]

section
variable (m : Map K) (old : List Triple) (ds : List Str) (fs : List (Str → Lat K))
  (h : List.Forall₂ (Means m) ds fs) (hne : ds ≠ [])
include h hne

/-- C133: `TopRewrites` of a cascade with a number gives the best strings of the rules, at most that many and
as many as there are, and fails only if there is none; with a number that is not positive it gives no
string and does not fail. -/
theorem C133_best (n : Int) (x : Str) : ∃ ts, setRules m old ds = (ts, true) ∧
    ((∃ ys, cascadeBest m ts n x = .ok ys ∧ BestN fs x n.toNat ys ∧ ∃ y c, Derives fs x y c) ∨
      cascadeBest m ts n x = .fail ∧ ∀ y c, ¬ Derives fs x y c) := by
  refine ⟨_, setRules_means m old ds fs h hne, ?_⟩
  rw [cascadeBest, cascadeLattice_full h]
  split
  · exact .inr ⟨rfl, (full_eq_nil fs x).1 ‹_›⟩
  · rename_i hf
    refine .inl ⟨_, rfl, shortest_bestN fs x n, ?_⟩
    obtain ⟨p, hp⟩ := List.exists_mem_of_ne_nil _ hf
    exact ⟨p.1, p.2, (mem_full_one fs x p.1 p.2).1 hp⟩

end

/-- C133: the three best of four outputs; two of them cost 3, one 8. -/
example : cascadeBest demoMap (setRules demoMap [] [[1], [2]]).1 3 [4] =
    .ok [([5, 5], 3), ([5, 6, 5, 6], 3), ([5], 8)] ∧
    cascadeBest demoMap (setRules demoMap [] [[1], [2]]).1 (-1) [4] = .ok [] ∧
    cascadeBest demoMap (setRules demoMap [] [[1], [2]]).1 2 [7] = .fail := by decide +kernel

example (n : Int) (x : Str) := C133_best demoMap [] _ _ demo_means (by simp) n x

omit [LinearOrder K] in
theorem managerLattice_full {m : Map K} {d : Str} {f : Str → Lat K} (h : Means m d f) (x : Str) :
    managerLattice m (parseRuleDef d) x = if full [f] [(x, 0)] = [] then .fail else .ok (full [f] [(x, 0)]) := by
  rw [managerLattice, rewriteLattice, composeRule_means h]
  simp only [Res.bind, checkNonEmpty, full, List.isEmpty_iff]
  by_cases e : compose [(x, 0)] f = [] <;> simp [e]

/-- C133: `Rewrites` gives every output once with the least of its costs, in a vector or in a repeated field,
and fails only if there is none. -/
theorem C133_rewrites (rep : Bool) (m : Map K) (d : Str) (f : Str → Lat K) (h : Means m d f) (x : Str) :
    (∃ ys, managerAll rep m (parseRuleDef d) x = .ok ys ∧ ys ≠ [] ∧ (ys.map (·.1)).Nodup ∧
        ∀ y c, (y, c) ∈ ys ↔ Least [f] x y c) ∨
      managerAll rep m (parseRuleDef d) x = .fail ∧ ∀ y c, ¬ Derives [f] x y c := by
  rw [managerAll, managerLattice_full h]
  split
  · exact .inr ⟨rfl, (full_eq_nil [f] x).1 ‹_›⟩
  · rename_i hf
    have hb : best (full [f] [(x, 0)]) ≠ [] := by
      intro e
      have := best_strings (full [f] [(x, 0)])
      rw [e] at this
      obtain ⟨p, hp⟩ := List.exists_mem_of_ne_nil _ hf
      have := this ▸ (mem_distinct _ p.1).2 ⟨p.2, hp⟩
      cases this
    refine .inl ⟨best (full [f] [(x, 0)]), ?_, hb, best_nodup _, fun y c => least_iff [f] x y c⟩
    cases rep <;> simp [Res.bind, dfaWeighted, toRepeated, toVector, hb]

/-- C133: `TopRewrites` gives the outputs of least cost of all, each once with this cost. -/
theorem C133_top_rewrites (rep : Bool) (m : Map K) (d : Str) (f : Str → Lat K) (h : Means m d f) (x : Str) :
    (∃ ys, managerTops rep m (parseRuleDef d) x = .ok ys ∧ ys ≠ [] ∧ (ys.map (·.1)).Nodup ∧
        ∀ y c, (y, c) ∈ ys ↔ Derives [f] x y c ∧ ∀ z e, Derives [f] x z e → c ≤ e) ∨
      managerTops rep m (parseRuleDef d) x = .fail ∧ ∀ y c, ¬ Derives [f] x y c := by
  rw [managerTops, managerLattice_full h]
  split
  · exact .inr ⟨rfl, (full_eq_nil [f] x).1 ‹_›⟩
  · rename_i hf
    have hm : ∀ y c, (y, c) ∈ dfaWeighted true (full [f] [(x, 0)]) ↔
        Derives [f] x y c ∧ ∀ z e, Derives [f] x z e → c ≤ e := by
      intro y c
      simp only [dfaWeighted, if_true, List.mem_filter, least_iff, decide_eq_true_eq]
      constructor
      · rintro ⟨⟨h1, _⟩, h2⟩
        refine ⟨h1, fun z e hz => ?_⟩
        exact (leastCost_iff (p := (y, c)) ((mem_full_one [f] x y c).2 h1)).1 h2 (z, e)
          ((mem_full_one [f] x z e).2 hz)
      · rintro ⟨h1, h2⟩
        refine ⟨⟨h1, fun e he => h2 y e he⟩, ?_⟩
        exact (leastCost_iff (p := (y, c)) ((mem_full_one [f] x y c).2 h1)).2 fun q hq =>
          h2 q.1 q.2 ((mem_full_one [f] x q.1 q.2).1 hq)
    have hb : dfaWeighted true (full [f] [(x, 0)]) ≠ [] := by
      rcases leastCost_spec (full [f] [(x, 0)]) with ⟨e, _⟩ | ⟨p, hp, _, hl⟩
      · exact absurd e hf
      · refine List.ne_nil_of_mem (a := (p.1, p.2)) ((hm _ _).2 ⟨(mem_full_one [f] x _ _).1 hp, ?_⟩)
        exact fun z e hz => hl (z, e) ((mem_full_one [f] x z e).2 hz)
    refine .inl ⟨dfaWeighted true (full [f] [(x, 0)]), ?_, hb, ?_, hm⟩
    · cases rep <;> simp [Res.bind, toRepeated, toVector, hb]
    · simp only [dfaWeighted, if_true]
      exact (best_nodup _).sublist ((List.filter_sublist).map _)

/-- C133: `TopRewrites` with a number, in a vector; in a repeated field the same, except that a number that is
not positive is a failure. -/
theorem C133_manager_best (m : Map K) (d : Str) (f : Str → Lat K) (h : Means m d f) (n : Int) (x : Str) :
    (∃ ys, managerBest false m (parseRuleDef d) n x = .ok ys ∧ BestN [f] x n.toNat ys ∧
        managerBest true m (parseRuleDef d) n x = (if n ≤ 0 then .fail else .ok ys)) ∨
      (∀ rep, managerBest rep m (parseRuleDef d) n x = .fail) ∧ ∀ y c, ¬ Derives [f] x y c := by
  simp only [managerBest, managerLattice_full h]
  split
  · exact .inr ⟨fun _ => rfl, (full_eq_nil [f] x).1 ‹_›⟩
  · rename_i hf
    have hB := shortest_bestN [f] x n
    refine .inl ⟨_, rfl, hB, ?_⟩
    simp only [Res.bind, if_true, toRepeated, List.isEmpty_iff]
    generalize latticeToShortest n (full [f] [(x, 0)]) = ys at hB
    obtain ⟨p, hp⟩ := List.exists_mem_of_ne_nil _ hf
    have hd := (mem_full_one [f] x p.1 p.2).1 hp
    by_cases hn : n ≤ 0
    · have : ys = [] := by
        have := hB.le
        have : n.toNat = 0 := by omega
        exact List.length_eq_zero_iff.1 (by omega)
      rw [if_pos this, if_pos hn]
    · rw [if_neg hn, if_neg]
      rintro rfl
      rcases hB.rest _ _ hd with ⟨c, hc⟩ | ⟨hl, _⟩
      · cases hc
      · simp at hl; omega

/-- C133: `TopRewrite` of the manager gives an output and its cost, and no output costs less. -/
theorem C133_top (m : Map K) (d : Str) (f : Str → Lat K) (h : Means m d f) (x : Str) :
    (∃ y c, managerTop m (parseRuleDef d) x = .ok (y, c) ∧ Derives [f] x y c ∧
        ∀ z e, Derives [f] x z e → c ≤ e) ∨
      managerTop m (parseRuleDef d) x = .fail ∧ ∀ y c, ¬ Derives [f] x y c := by
  rw [managerTop, managerLattice_full h]
  split
  · exact .inr ⟨rfl, (full_eq_nil [f] x).1 ‹_›⟩
  · rename_i hf
    rcases leastCost_spec (full [f] [(x, 0)]) with ⟨e, _⟩ | ⟨p, hp, hs, _⟩
    · exact absurd e hf
    · simp only [Res.bind, topWeighted]
      cases hq : (full [f] [(x, 0)]).find? fun p => leastCost (full [f] [(x, 0)]) = some p.2 with
      | none => exact absurd hs (by simpa using List.find?_eq_none.1 hq p hp)
      | some q =>
        have h1 := List.mem_of_find?_eq_some hq
        have h2 : leastCost (full [f] [(x, 0)]) = some q.2 := by simpa using List.find?_some hq
        refine .inl ⟨q.1, q.2, rfl, (mem_full_one [f] x _ _).1 h1, fun z e hz => ?_⟩
        exact (leastCost_iff h1).1 h2 (z, e) ((mem_full_one [f] x z e).2 hz)

/-- C133: `OneTopRewrite` of the manager gives a string exactly if it is the only output of least cost. -/
theorem C133_one_top (m : Map K) (d : Str) (f : Str → Lat K) (h : Means m d f) (x y : Str) :
    managerOneTop m (parseRuleDef d) x = .ok y ↔ Optimal [f] x y ∧ ∀ z, Optimal [f] x z → z = y := by
  have ht := C133_top_rewrites false m d f h x
  rw [managerTops] at ht
  rw [managerOneTop]
  rw [managerLattice_full h] at ht ⊢
  split
  · rename_i hf
    have h1 := (full_eq_nil [f] x).1 hf
    constructor
    · intro h; cases h
    · rintro ⟨⟨c, h2, _⟩, _⟩; exact absurd h2 (h1 _ _)
  · rename_i hf
    rw [if_neg hf] at ht
    simp only [Res.bind] at ht ⊢
    rcases ht with ⟨ys, e, _, hn, hm⟩ | ⟨e, _⟩
    · injection e with e
      have e' : dfaWeighted true (full [f] [(x, 0)]) = ys := e
      rw [e']
      have ho : ∀ z, z ∈ ys.map (·.1) ↔ Optimal [f] x z := by
        intro z
        rw [List.mem_map]
        constructor
        · rintro ⟨⟨_, c⟩, hp, rfl⟩
          exact ⟨c, (hm _ _).1 hp⟩
        · rintro ⟨c, hc⟩
          exact ⟨(z, c), (hm z c).2 hc, rfl⟩
      generalize ys.map (·.1) = zs at hn ho
      match zs, hn, ho with
      | [], _, ho => exact ⟨fun h => (by cases h), fun h => by simpa using (ho y).2 h.1⟩
      | [z], _, ho =>
        refine ⟨fun h => ?_, fun h => ?_⟩
        · injection h with h
          subst h
          exact ⟨(ho z).1 (by simp), fun w hw => by simpa using (ho w).2 hw⟩
        · rw [h.2 z ((ho z).1 (by simp))]; rfl
      | a :: b :: l, hn, ho =>
        refine ⟨fun h => (by cases h), fun h => ?_⟩
        have e1 := h.2 a ((ho a).1 (by simp))
        have e2 := h.2 b ((ho b).1 (by simp))
        rw [e1, e2] at hn
        simp at hn
    · cases e

/-- C133: the manager and a cascade of the one rule give the same best strings. -/
theorem C133_cascade (m : Map K) (old : List Triple) (d : Str) (f : Str → Lat K) (h : Means m d f) (n : Int)
    (x : Str) : ∃ ts, setRules m old [d] = (ts, true) ∧
    cascadeBest m ts n x = managerBest false m (parseRuleDef d) n x := by
  have h' : List.Forall₂ (Means m) [d] [f] := .cons h .nil
  refine ⟨_, setRules_means m old [d] [f] h' (by simp), ?_⟩
  rw [cascadeBest, managerBest, cascadeLattice_full h', managerLattice_full h]
  rfl

/-- C133: a rule that gives one string in two ways. -/
def twiceMap : Map Nat := fun n =>
  if n = [1] then some { apply := fun x => [(x, 5), (9 :: x, 3), (x, 2), (x ++ x, 2)] } else none

theorem twice_means : Means twiceMap [1] (fun x => [(x, 5), (9 :: x, 3), (x, 2), (x ++ x, 2)]) :=
  .rule (m := twiceMap) (e := { apply := fun x => [(x, 5), (9 :: x, 3), (x, 2), (x ++ x, 2)] }) (by decide) rfl

example : managerAll true twiceMap ⟨[1], [], []⟩ [4] = .ok [([4], 2), ([9, 4], 3), ([4, 4], 2)] ∧
    managerTops false twiceMap ⟨[1], [], []⟩ [4] = .ok [([4], 2), ([4, 4], 2)] ∧
    managerBest true twiceMap ⟨[1], [], []⟩ 1 [4] = .ok [([4], 2)] ∧
    managerBest true twiceMap ⟨[1], [], []⟩ 0 [4] = .fail ∧
    managerBest false twiceMap ⟨[1], [], []⟩ 0 [4] = .ok [] ∧
    managerTop twiceMap ⟨[1], [], []⟩ [4] = .ok ([4], 2) ∧
    managerOneTop twiceMap ⟨[1], [], []⟩ [4] = .fail ∧
    managerOneTop twiceMap ⟨[1], [], []⟩ [] = .ok [] := by decide +kernel

example (x : Str) := C133_rewrites true twiceMap _ _ twice_means x

omit [AddMonoid K] [LinearOrder K] in
/-- C133: `SetFst` replaces the transducer of a name that there is, and only this one; it refuses
other names. -/
theorem C133_set_fst (m : Map K) (n : Str) (e : Entry K) :
    ((setFst m n e).2 = true ↔ m n ≠ none) ∧
    (∀ k, (setFst m n e).1 k = if k = n ∧ m n ≠ none then some e else m k) := by
  unfold setFst
  cases hm : m n with
  | none => simp
  | some a => simp

/-- C133: a debug string of labels without epsilon labels and generated symbols is the output.
Missing: epsilon labels, see `C133_debug_violated`. -/
theorem C133_debug_partial (gensyms : Option (Nat → Str)) (labels : List Nat)
    (hg : ∀ g, gensyms = some g → ∀ l ∈ labels, g l = []) (h0 : 0 ∉ labels) :
    (withDebug gensyms labels).2 = (withDebug gensyms labels).1 := by
  simp only [withDebug, debugString, labelsToBytes, Bool.not_true, Bool.false_eq_true, if_false]
  have hp : ∀ l ∈ labels, printDebug gensyms l = [l % 256] := by
    intro l hl
    unfold printDebug
    cases gensyms with
    | none => rfl
    | some g => simp [hg g rfl l hl]
  clear hg
  induction labels with
  | nil => rfl
  | cons l ls ih =>
    have hl : l ≠ 0 := fun e => h0 (by simp [e])
    rw [List.flatMap_cons, hp l (by simp), ih (fun hm => h0 (by simp [hm])) (fun k hk => hp k (by simp [hk]))]
    simp [hl]

/-- C133: a generated symbol is shown in brackets, what comes before and after it is not changed. -/
theorem C133_debug_symbol (g : Nat → Str) (a b : List Nat) (l : Nat) (hl : g l ≠ []) :
    (withDebug (some g) (a ++ l :: b)).2 =
      (withDebug (some g) a).2 ++ 91 :: (g l ++ 93 :: (withDebug (some g) b).2) := by
  simp [withDebug, debugString, printDebug, hl]

/-- The label 300 is a generated symbol `x`. -/
example : withDebug (some fun l => if l = 300 then [120] else []) [97, 300, 98] =
    ([97, 44, 98], [97, 91, 120, 93, 98]) := by decide +kernel

/-- C133 does not hold for epsilon labels, which the shortest path algorithm may add: the debug string has
a NUL byte for each, the output has none. -/
theorem C133_debug_violated (labels : List Nat) (hb : ∀ l ∈ labels, l < 256) :
    ((withDebug none labels).2 = (withDebug none labels).1 ↔ 0 ∉ labels) ∧
    (withDebug none labels).2.count 0 = labels.count 0 ∧ 0 ∉ (withDebug none labels).1 := by
  have e2 : (withDebug none labels).2 = labels := by
    simp only [withDebug, debugString, Bool.not_true, Bool.false_eq_true, if_false]
    clear * - hb
    induction labels with
    | nil => rfl
    | cons l ls ih =>
      rw [List.flatMap_cons, ih fun k hk => hb k (by simp [hk])]
      simp [printDebug, Nat.mod_eq_of_lt (hb l (by simp))]
  have h1 : 0 ∉ (withDebug none labels).1 := by
    simp only [withDebug, labelsToBytes, List.mem_map, List.mem_filter, decide_eq_true_eq, not_exists, not_and]
    rintro l ⟨hl, h0⟩ e
    rw [Nat.mod_eq_of_lt (hb l hl)] at e
    exact h0 e
  refine ⟨⟨fun e => ?_, fun h0 => C133_debug_partial none labels (by simp) h0⟩, by rw [e2], h1⟩
  rw [← e2, e]
  exact h1

example : withDebug none [0, 97, 98] = ([97, 98], [0, 97, 98]) := by decide +kernel

end Nisaba.Props
