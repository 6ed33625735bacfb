import Verif.Model.PairLM
import Mathlib.Algebra.BigOperators.Group.List.Basic
import Mathlib.Algebra.BigOperators.Ring.List
import Mathlib.Algebra.Order.BigOperators.Group.List
import Mathlib.Data.List.Nodup
import Mathlib.Tactic.FieldSimp
import Mathlib.Tactic.Ring
/-!
# Lemmas on the pair language model decoder
-/
set_option linter.unusedSectionVars false
namespace Nisaba.PairLM

/-! ## First occurrences -/

theorem mem_firsts {y : Str} : ∀ {l : List Str}, y ∈ firsts l ↔ y ∈ l
  | [] => by simp [firsts]
  | a :: l => by
    simp only [firsts, List.mem_cons, List.mem_filter, decide_eq_true_eq, mem_firsts (l := l)]
    by_cases h : y = a <;> simp [h]

theorem firsts_nodup : ∀ l : List Str, (firsts l).Nodup
  | [] => by simp [firsts]
  | a :: l => by
    simp only [firsts, List.nodup_cons, List.mem_filter, decide_eq_true_eq]
    exact ⟨by simp, (firsts_nodup l).filter _⟩

theorem firsts_of_nodup : ∀ {l : List Str}, l.Nodup → firsts l = l
  | [], _ => rfl
  | a :: l, h => by
    have h' := List.nodup_cons.1 h
    simp only [firsts, firsts_of_nodup h'.2]
    rw [List.filter_eq_self.2]
    intro x hx
    simp only [decide_eq_true_eq]
    rintro rfl
    exact h'.1 hx

theorem firsts_append_of_subset {m : List Str} : ∀ {l : List Str}, (∀ y ∈ m, y ∈ l) →
    firsts (l ++ m) = firsts l := by
  have key : ∀ l : List Str, firsts (l ++ m) = firsts l ++ (firsts m).filter (fun y => y ∉ l) := by
    intro l
    induction l with
    | nil => simp [firsts]
    | cons a l ih =>
      simp only [List.cons_append, firsts, ih, List.filter_append, List.filter_filter]
      congr 2
      apply List.filter_congr
      intro x _
      simp only [List.mem_cons, not_or, Bool.decide_and]
  intro l h
  rw [key, List.filter_eq_nil_iff.2, List.append_nil]
  intro y hy
  simp only [decide_eq_true_eq, not_not]
  exact h y (mem_firsts.1 hy)

/-! ## Weights -/

variable {K : Type} [Field K] [LinearOrder K]

theorem weightOf_cons (p : Str × K) (c : Cands K) (y : Str) :
    weightOf (p :: c) y = (if p.1 = y then p.2 else 0) + weightOf c y := by
  by_cases h : p.1 = y <;> simp [weightOf, h]

theorem weightOf_append (c d : Cands K) (y : Str) :
    weightOf (c ++ d) y = weightOf c y + weightOf d y := by
  simp [weightOf]

theorem total_append (c d : Cands K) : total (c ++ d) = total c + total d := by simp [total]

theorem total_cons (p : Str × K) (c : Cands K) : total (p :: c) = p.2 + total c := by simp [total]

def scale (m : K) (c : Cands K) : Cands K := c.map fun p => (p.1, p.2 * m)

theorem total_scale (m : K) (c : Cands K) : total (scale m c) = total c * m := by
  induction c with
  | nil => simp [scale, total]
  | cons p c ih =>
    have : scale m (p :: c) = (p.1, p.2 * m) :: scale m c := rfl
    rw [this, total_cons, total_cons, ih, add_mul]

theorem weightOf_scale (m : K) (c : Cands K) (y : Str) :
    weightOf (scale m c) y = weightOf c y * m := by
  induction c with
  | nil => simp [scale, weightOf]
  | cons p c ih =>
    have : scale m (p :: c) = (p.1, p.2 * m) :: scale m c := rfl
    rw [this, weightOf_cons, weightOf_cons, ih, add_mul]
    by_cases h : p.1 = y <;> simp [h]

theorem keys_scale (m : K) (c : Cands K) : (scale m c).map (·.1) = c.map (·.1) := by
  simp [scale, Function.comp_def]

theorem weightOf_of_not_mem {c : Cands K} {y : Str} (h : y ∉ c.map (·.1)) : weightOf c y = 0 := by
  unfold weightOf
  rw [List.filter_eq_nil_iff.2]
  · rfl
  · intro p hp
    simp only [decide_eq_true_eq]
    rintro rfl
    exact h (List.mem_map_of_mem hp)

omit [LinearOrder K] in
theorem sum_ite_nodup (a : Str) (p : K) : ∀ {L : List Str}, L.Nodup →
    (L.map fun y => if a = y then p else 0).sum = if a ∈ L then p else 0
  | [], _ => by simp
  | b :: L, h => by
    have h' := List.nodup_cons.1 h
    simp only [List.map_cons, List.sum_cons, sum_ite_nodup a p h'.2, List.mem_cons]
    by_cases e : a = b
    · subst e; simp [h'.1]
    · simp [e]

theorem total_eq_sum {L : List Str} (hL : L.Nodup) : ∀ {c : Cands K}, (∀ y ∈ c.map (·.1), y ∈ L) →
    (L.map fun y => weightOf c y).sum = total c
  | [], _ => by simp [total, weightOf]
  | p :: c, h => by
    simp only [weightOf_cons, List.sum_map_add, total_cons]
    rw [sum_ite_nodup _ _ hL, total_eq_sum hL fun y hy => h y (List.mem_cons_of_mem _ hy)]
    simp [h p.1 (by simp)]

/-! ## Pushing -/

theorem keys_push (c : Cands K) : (push c).map (·.1) = firsts (c.map (·.1)) := by
  simp [push, Function.comp_def]

/-- An acceptor with one arc per string. -/
theorem weightOf_table (f : Str → K) (y : Str) : ∀ {L : List Str}, L.Nodup →
    weightOf (L.map fun z => (z, f z)) y = if y ∈ L then f y else 0
  | [], _ => by simp [weightOf]
  | b :: L, h => by
    have h' := List.nodup_cons.1 h
    rw [List.map_cons, weightOf_cons, weightOf_table f y h'.2]
    by_cases e : b = y
    · subst e; simp [h'.1]
    · have e' : ¬ y = b := fun h => e h.symm
      simp [e, e']

theorem weightOf_push (c : Cands K) (y : Str) : weightOf (push c) y = weightOf c y / total c := by
  unfold push
  rw [weightOf_table (fun y => weightOf c y / total c) y (firsts_nodup _)]
  split
  · rfl
  · rename_i h
    rw [weightOf_of_not_mem (fun h' => h (mem_firsts.2 h')), zero_div]

theorem total_push {c : Cands K} (h : total c ≠ 0) : total (push c) = 1 := by
  have e := total_eq_sum (c := c) (firsts_nodup _) fun y hy => mem_firsts.2 hy
  have : total (push c) = ((firsts (c.map (·.1))).map fun y => weightOf c y * (total c)⁻¹).sum := by
    simp [push, total, Function.comp_def, div_eq_mul_inv]
  rw [this, List.sum_map_mul_right, e, mul_inv_cancel₀ h]

theorem push_congr {c d : Cands K} (hk : firsts (c.map (·.1)) = firsts (d.map (·.1)))
    (hw : ∀ y, weightOf c y / total c = weightOf d y / total d) : push c = push d := by
  unfold push
  rw [hk]
  simp [hw]

theorem push_push {c : Cands K} (h : total c ≠ 0) : push (push c) = push c := by
  apply push_congr
  · rw [keys_push, firsts_of_nodup (firsts_nodup _)]
  · intro y
    rw [weightOf_push, total_push h, div_one]

theorem push_scale {m : K} (hm : m ≠ 0) (c : Cands K) : push (scale m c) = push c := by
  apply push_congr
  · rw [keys_scale]
  · intro y
    rw [weightOf_scale, total_scale, mul_div_mul_right _ _ hm]

variable [IsStrictOrderedRing K]

theorem push_scale_append {m : K} (hm : 0 < m) {c : Cands K} (h : 0 < total c) :
    push (scale m c ++ push c) = push c := by
  apply push_congr
  · rw [List.map_append, keys_scale, keys_push]
    exact firsts_append_of_subset fun y hy => mem_firsts.1 hy
  · intro y
    have h1 : total c * m + 1 ≠ 0 := ne_of_gt (add_pos (mul_pos h hm) one_pos)
    rw [weightOf_append, total_append, weightOf_scale, total_scale, weightOf_push, total_push h.ne']
    have := h.ne'
    have h2 : m * total c + 1 ≠ 0 := by rwa [mul_comm m]
    field_simp

/-- All weights are positive and there is a candidate. -/
def Proper (c : Cands K) : Prop := c ≠ [] ∧ ∀ p ∈ c, 0 < p.2

theorem sum_pos : ∀ {l : List K}, (∀ x ∈ l, 0 ≤ x) → 0 ≤ l.sum
  | [], _ => by simp
  | a :: l, h => by
    rw [List.sum_cons]
    exact add_nonneg (h a (by simp)) (sum_pos fun x hx => h x (List.mem_cons_of_mem _ hx))

theorem Proper.total_pos {c : Cands K} (h : Proper c) : 0 < total c := by
  obtain ⟨h1, h2⟩ := h
  match c, h1 with
  | p :: c, _ =>
    rw [total_cons]
    refine add_pos_of_pos_of_nonneg (h2 p (by simp)) (sum_pos ?_)
    intro x hx
    obtain ⟨q, hq, rfl⟩ := List.mem_map.1 hx
    exact (h2 q (List.mem_cons_of_mem _ hq)).le

theorem Proper.weightOf_pos {c : Cands K} (h : Proper c) {y : Str} (hy : y ∈ c.map (·.1)) :
    0 < weightOf c y := by
  have hp : Proper (c.filter fun p => p.1 = y) := by
    refine ⟨?_, fun p hp => h.2 p (List.mem_of_mem_filter hp)⟩
    obtain ⟨p, hp, rfl⟩ := List.mem_map.1 hy
    exact List.ne_nil_of_mem (List.mem_filter.2 ⟨hp, by simp⟩)
  exact hp.total_pos

theorem Proper.push {c : Cands K} (h : Proper c) : Proper (PairLM.push c) := by
  constructor
  · intro e
    have := congrArg (List.map (·.1)) e
    rw [keys_push] at this
    match c, h.1 with
    | p :: c, _ => simp [firsts] at this
  · intro p hp
    obtain ⟨y, hy, rfl⟩ := List.mem_map.1 hp
    exact div_pos (h.weightOf_pos (mem_firsts.1 hy)) h.total_pos

/-! ## Tables -/

theorem setCand_keys {c : Cands K} {y : Str} {p : K} {z : Str} :
    z ∈ (setCand c y p).map (·.1) ↔ z = y ∨ z ∈ c.map (·.1) := by
  unfold setCand
  split
  · rename_i h
    simp only [List.any_eq_true, decide_eq_true_eq] at h
    obtain ⟨q, hq, rfl⟩ := h
    rw [List.map_map, show ((fun q : Str × K => q.1) ∘ fun q' : Str × K => if q'.1 = q.1 then (q.1, p) else q')
      = fun q => q.1 from funext fun q' => by by_cases e : q'.1 = q.1 <;> simp [e]]
    constructor
    · exact Or.inr
    · rintro (rfl | h)
      · exact List.mem_map_of_mem hq
      · exact h
  · simp [or_comm]

/-- Writing the entry that is already there. -/
theorem setCand_same {c : Cands K} (hn : (c.map (·.1)).Nodup) {y : Str} {p : K} (h : (y, p) ∈ c) :
    setCand c y p = c := by
  unfold setCand
  rw [if_pos (List.any_eq_true.2 ⟨_, h, by simp⟩)]
  conv_rhs => rw [← List.map_id c]
  apply List.map_congr_left
  intro q hq
  by_cases e : q.1 = y
  · simp only [e, if_true, id]
    exact (List.inj_on_of_nodup_map hn h hq e.symm)
  · simp [e]

/-- Writing a new entry. -/
theorem setCand_new {c : Cands K} {y : Str} {p : K} (h : y ∉ c.map (·.1)) :
    setCand c y p = c ++ [(y, p)] := by
  unfold setCand
  rw [if_neg]
  intro e
  obtain ⟨q, hq, e⟩ := List.any_eq_true.1 e
  simp only [decide_eq_true_eq] at e
  exact h (e ▸ List.mem_map_of_mem hq)

theorem foldl_setCand_new : ∀ (m : Cands K) (c : Cands K), ((c ++ m).map (·.1)).Nodup →
    m.foldl (fun c p => setCand c p.1 p.2) c = c ++ m
  | [], c, _ => by simp
  | p :: m, c, h => by
    rw [List.foldl_cons, setCand_new, foldl_setCand_new m]
    · simp
    · simpa using h
    · rw [List.map_append, List.map_cons] at h
      intro hp
      exact (List.nodup_append.1 h).2.2 _ hp _ (by simp) rfl

theorem foldl_setCand_same {c : Cands K} (hn : (c.map (·.1)).Nodup) : ∀ (m : Cands K),
    (∀ p ∈ m, p ∈ c) → m.foldl (fun c p => setCand c p.1 p.2) c = c
  | [], _ => rfl
  | p :: m, h => by
    rw [List.foldl_cons, setCand_same hn (h p (by simp)),
      foldl_setCand_same hn m fun q hq => h q (List.mem_cons_of_mem _ hq)]

theorem foldl_setCache (w : Str) : ∀ (m : Cands K) (g : Str → Option (Cands K)), m ≠ [] → ∀ v,
    (m.foldl (fun c p => setCache c w p.1 p.2) g) v =
      if v = w then some (m.foldl (fun c p => setCand c p.1 p.2) ((g w).getD [])) else g v
  | [p], g, _, v => by simp [setCache]
  | p :: q :: m, g, _, v => by
    rw [List.foldl_cons, foldl_setCache w (q :: m) _ (by simp) v]
    by_cases e : v = w <;> simp [e, setCache]

end Nisaba.PairLM
