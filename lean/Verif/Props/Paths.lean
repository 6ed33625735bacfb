import Verif.Lemmas.Paths
import Mathlib.Algebra.Ring.Nat
/-!
# C67, C68: the path iterator

`Accepts F s p`: the arc numbers `p` lead from `s` to a final state; `readout F s p` are the labels and
the weight along these arcs (Lemmas/Paths.lean).
-/
namespace Nisaba.Props

open Paths Fst

variable {W : Type} [MonoidWithZero W] [DecidableEq W]

/-- C67: on an acyclic automaton without dead ends the iterator shows every path once, in the order of
arc numbers with a path before its extensions, with the labels and the weight of the path, and then
ends; no vector is popped when empty. -/
theorem C67_paths (F : WFst W) (hv : Valid F) (ha : Acyclic F) (s : Nat) (hs : F.start = some s)
    (hc : ∀ t, Relation.ReflTransGen (Edge F) s t → ∃ p, Accepts F t p) :
    ∃ ps : List (List Nat), ps.Nodup ∧ ps.Pairwise (· < ·) ∧ (∀ p, p ∈ ps ↔ Accepts F s p) ∧
      ∃ k, ∀ fuel, k ≤ fuel → ∃ e, allPaths F fuel = some (ps.map (readout F s), e) ∧ e.done = true := by
  obtain ⟨r, hr, hN⟩ := ranked_of_acyclic hv ha
  have hsort := paths_sorted hr (r s) s le_rfl
  refine ⟨paths F r s, List.Pairwise.imp (S := (· ≠ ·)) (fun h => ne_of_lt h) hsort, hsort, mem_paths hr s,
    F.table.length + 1 + (paths F r s).length + 2, fun fuel hf => ?_⟩
  obtain ⟨it, q, l, h1, h2, h3⟩ := init_spec hr hs hc fuel fun t => (hN t).trans_le (by omega)
  refine ⟨{ pop := true }, ?_, rfl⟩
  rw [allPaths, h1, h2]
  have hl : (paths F r s).length = l.length + 1 := by rw [h2]; rfl
  exact collect_spec hr hc fuel (fun t => (hN t).trans_le (by omega)) l q it fuel (by omega) h3

/-- C67: without a start state there is nothing to show. -/
theorem C67_empty (F : WFst W) (hs : F.start = none) (fuel : Nat) :
    ∃ e, allPaths F (fuel + 1) = some ([], e) := ⟨{}, by
  simp [allPaths, init, reset, hs, collect, It.done]⟩

/-- C67: `LatticeToOneTopString` succeeds exactly if there is exactly one path, and returns its output
labels. -/
theorem C67_one_top (F : WFst W) (hv : Valid F) (ha : Acyclic F) (s : Nat) (hs : F.start = some s)
    (hc : ∀ t, Relation.ReflTransGen (Edge F) s t → ∃ p, Accepts F t p) :
    ∃ res, (∃ k, ∀ fuel, k ≤ fuel → Paths.oneTop F fuel = some res) ∧
      ∀ y, res = some y ↔ ∃ p, Accepts F s p ∧ (∀ q, Accepts F s q → q = p) ∧ y = (readout F s p).2.1 := by
  obtain ⟨r, hr, hN⟩ := ranked_of_acyclic hv ha
  have hN' : ∀ fuel, F.table.length + 1 ≤ fuel → ∀ t, r t < fuel := fun fuel hf t => (hN t).trans_le hf
  have hm := mem_paths hr s
  have hnd : (paths F r s).Nodup := List.Pairwise.imp (S := (· ≠ ·)) (fun h => ne_of_lt h) (paths_sorted hr (r s) s le_rfl)
  cases hp : paths F r s with
  | nil => exact absurd hp (paths_ne hr hc .refl)
  | cons q l =>
    have run : ∀ fuel, F.table.length + 1 ≤ fuel →
        Paths.oneTop F fuel = some (if l = [] then some (readout F s q).2.1 else none) := by
      intro fuel hf
      obtain ⟨it, q', l', h1, h2, h3⟩ := init_spec hr hs hc fuel (hN' fuel hf)
      rw [hp] at h2
      injection h2 with e1 e2
      subst e1 e2
      obtain ⟨o1, o2⟩ := h3.out
      rw [Paths.oneTop, h1]
      simp only [Option.bind_eq_bind, Option.bind_some, o2]
      rcases next_spec hr hc fuel (hN' fuel hf) h3 with ⟨n1, n2⟩ | ⟨it', q2, l2, n1, n2, n3⟩
      · rw [n2]; simp [It.done, n1, o1]
      · rw [n1]; simp [n3.out.2, n2]
    refine ⟨_, ⟨_, run⟩, fun y => ?_⟩
    rw [hp] at hm hnd
    constructor
    · intro h
      split at h
      · rename_i hl
        injection h with h
        subst hl h
        exact ⟨q, (hm q).1 (by simp), fun p hp' => by simpa using (hm p).2 hp', rfl⟩
      · cases h
    · rintro ⟨p, h1, h2, rfl⟩
      have hq : q = p := h2 q ((hm q).1 (by simp))
      have hl : l = [] := by
        cases l with
        | nil => rfl
        | cons b l =>
          have hb : b = p := h2 b ((hm b).1 (by simp))
          rw [hq, hb] at hnd
          simp at hnd
      rw [if_pos hl, hq]

/-- C67 does not hold for an automaton with a dead end: an arc into it is shown as a path. -/
theorem C67_dead_end : ∃ F : WFst Nat, Valid F ∧ Acyclic F ∧ (∃ s, F.start = some s ∧
    ∀ p, Accepts F s p → p = []) ∧
    allPaths F 9 = some ([([], [], 1), ([5], [6], 1)], { pop := true }) := by
  refine ⟨⟨some 0, [(1, [⟨5, 6, 1, 1⟩]), (0, [])]⟩, ⟨by simp, ?_⟩, ?_, ⟨0, rfl, ?_⟩, by rfl⟩
  · rintro (_ | _ | s) a h <;> simp [WFst.arcs] at h <;> simp [h]
  · have edge : ∀ s t, Edge (⟨some 0, [(1, [⟨5, 6, 1, 1⟩]), (0, [])]⟩ : WFst Nat) s t → s = 0 ∧ t = 1 := by
      rintro (_ | _ | s) t ⟨a, h, rfl⟩ <;> simp [WFst.arcs] at h
      simp [h]
    intro s h
    have h1 : s = 0 := by
      obtain ⟨t, h1, _⟩ := Relation.TransGen.head'_iff.1 h
      exact (edge _ _ h1).1
    have h2 : s = 1 := by
      obtain ⟨t, _, h1⟩ := Relation.TransGen.tail'_iff.1 h
      exact (edge _ _ h1).2
    omega
  · intro p hp
    cases hp with
    | nil => rfl
    | @cons _ i a p h1 h2 =>
      exfalso
      have : a = ⟨5, 6, 1, 1⟩ := by
        cases i <;> simp [WFst.arcs] at h1
        exact h1.symm
      subst this
      cases h2 with
      | nil h => exact h rfl
      | cons h3 _ => simp [WFst.arcs] at h3

/-- C68: after the last path `Reset` gives a new iterator. -/
theorem C68_reset_partial (F : WFst W) (hv : Valid F) (ha : Acyclic F) (s : Nat) (hs : F.start = some s)
    (hc : ∀ t, Relation.ReflTransGen (Edge F) s t → ∃ p, Accepts F t p) :
    ∃ k, ∀ fuel, k ≤ fuel → ∃ l e, allPaths F fuel = some (l, e) ∧ reset F fuel e = init F fuel := by
  obtain ⟨r, hr, hN⟩ := ranked_of_acyclic hv ha
  refine ⟨F.table.length + 1 + (paths F r s).length + 2, fun fuel hf => ?_⟩
  obtain ⟨it, q, l, h1, h2, h3⟩ := init_spec hr hs hc fuel fun t => (hN t).trans_le (by omega)
  have hl : (paths F r s).length = l.length + 1 := by rw [h2]; rfl
  refine ⟨(q :: l).map (readout F s), { pop := true }, ?_, ?_⟩
  · rw [allPaths, h1]
    exact collect_spec hr hc fuel (fun t => (hN t).trans_le (by omega)) l q it fuel (by omega) h3
  · rw [init, reset, reset, hs]

/-- The automaton of the strings 1 and 1 2. -/
def twoStrings : WFst Nat := ⟨some 0, [(0, [⟨1, 1, 3, 1⟩]), (5, [⟨2, 2, 1, 2⟩]), (7, [])]⟩

/-- C68 does not hold in the middle: after `Reset` at the first path the labels of that path stay in
front, and the third `Next` pops the labels of an empty vector. -/
theorem C68_reset_violated : ∃ it0 it1 it2 it3, init twoStrings 9 = some it0 ∧
    reset twoStrings 9 it0 = some it1 ∧ next twoStrings 9 it1 = some it2 ∧ next twoStrings 9 it2 = some it3 ∧
    it1.out = ([1, 1], [1, 1], 225) ∧ it2.out = ([1, 1, 2], [1, 1, 2], 315) ∧ it3.out = ([2], [2], 21) ∧
    it3.done = false ∧ (∀ fuel, next twoStrings fuel it3 = none) ∧
    (allPaths twoStrings 9).map (·.1) = some [([1], [1], 15), ([1, 2], [1, 2], 21)] :=
  ⟨_, _, _, _, rfl, rfl, rfl, rfl, rfl, rfl, rfl, rfl, fun _ => rfl, rfl⟩

theorem twoStrings_valid : Valid twoStrings := by
  refine ⟨by simp [twoStrings], ?_⟩
  rintro (_ | _ | _ | s) a h <;> simp [WFst.arcs, twoStrings] at h <;> simp [h, twoStrings]

theorem twoStrings_edge (s t : Nat) (h : Edge twoStrings s t) : t = s + 1 := by
  obtain ⟨a, h, rfl⟩ := h
  match s, h with
  | 0, h | 1, h => simp [WFst.arcs, twoStrings] at h; simp [h]
  | 2, h | s + 3, h => simp [WFst.arcs, twoStrings] at h

theorem twoStrings_acyclic : Acyclic twoStrings := by
  have : ∀ s t, Relation.TransGen (Edge twoStrings) s t → s < t := by
    intro s t h
    induction h with
    | single h => have := twoStrings_edge _ _ h; omega
    | tail _ h ih => have := twoStrings_edge _ _ h; omega
  intro s h
  exact lt_irrefl _ (this s s h)

theorem twoStrings_coacc (t : Nat) (h : Relation.ReflTransGen (Edge twoStrings) 0 t) :
    ∃ p, Accepts twoStrings t p := by
  have h2 : Accepts twoStrings 2 [] := .nil (by decide)
  have h1 : Accepts twoStrings 1 [] := .nil (by decide)
  induction h with
  | refl => exact ⟨[0], .cons (a := ⟨1, 1, 3, 1⟩) rfl h1⟩
  | @tail u t _ he _ =>
    obtain ⟨a, ha, rfl⟩ := he
    match u, ha with
    | 0, ha => simp [WFst.arcs, twoStrings] at ha; subst ha; exact ⟨[], h1⟩
    | 1, ha => simp [WFst.arcs, twoStrings] at ha; subst ha; exact ⟨[], h2⟩
    | 2, ha | u + 3, ha => simp [WFst.arcs, twoStrings] at ha

/-- C67, C68: the hypotheses hold for the automaton of 1 and 1 2. -/
example : (∃ ps : List (List Nat), (∀ p, p ∈ ps ↔ Accepts twoStrings 0 p) ∧ [0, 0] ∈ ps) ∧
    ∃ k, ∀ fuel, k ≤ fuel → ∃ l e, allPaths twoStrings fuel = some (l, e) ∧
      reset twoStrings fuel e = init twoStrings fuel := by
  refine ⟨?_, C68_reset_partial twoStrings twoStrings_valid twoStrings_acyclic 0 rfl twoStrings_coacc⟩
  obtain ⟨ps, _, _, h, _⟩ := C67_paths twoStrings twoStrings_valid twoStrings_acyclic 0 rfl twoStrings_coacc
  exact ⟨ps, h, (h _).2 (.cons (a := ⟨1, 1, 3, 1⟩) rfl (.cons (a := ⟨2, 2, 1, 2⟩) rfl (.nil (by decide))))⟩

/-- C67: two strings are no unique string. -/
example : Paths.oneTop twoStrings 9 = some none := rfl

/-- C67: a single string. -/
example : Paths.oneTop (⟨some 0, [(0, [⟨1, 4, 3, 1⟩]), (5, [])]⟩ : WFst Nat) 9 = some (some [4]) := rfl

end Nisaba.Props
