import Verif.Model.Rule
/-! Helper lemmas about the executable string tests. -/
namespace Nisaba

theorem isPre_iff {a b : Str} : isPre a b = true ↔ a <+: b := by
  induction a generalizing b with
  | nil => simp [isPre]
  | cons x xs ih =>
    cases b with
    | nil => simp [isPre]
    | cons y ys =>
      simp only [isPre, Bool.cond_eq_ite, List.cons_prefix_cons]
      by_cases h : x = y
      · subst h; simp [ih]
      · have : Nat.beq x y = false := by
          rw [Bool.eq_false_iff]; intro hb; exact h (Nat.eq_of_beq_eq_true hb)
        simp [this, h]

theorem isFactor_iff {a b : Str} : isFactor a b = true ↔ a <:+: b := by
  induction b with
  | nil => cases a <;> simp [isFactor]
  | cons c b ih =>
    simp only [isFactor, Bool.or_eq_true, isPre_iff, ih, List.infix_cons_iff]

theorem strEq_iff {a b : Str} : strEq a b = true ↔ a = b := by
  induction a generalizing b with
  | nil => cases b <;> simp [strEq]
  | cons x xs ih =>
    cases b with
    | nil => simp [strEq]
    | cons y ys =>
      simp only [strEq, Bool.cond_eq_ite, List.cons.injEq]
      by_cases h : x = y
      · subst h; simp [ih]
      · have : Nat.beq x y = false := by
          rw [Bool.eq_false_iff]; intro hb; exact h (Nat.eq_of_beq_eq_true hb)
        simp [this, h]

theorem ruleEq_iff {p q : Rule} : ruleEq p q = true ↔ p = q := by
  obtain ⟨a, b⟩ := p; obtain ⟨c, d⟩ := q
  simp [ruleEq, strEq_iff]

theorem edge_iff {p q : Rule} : edge p q = true ↔ p ≠ q ∧ p.1 <:+: q.1 := by
  simp only [edge, matchLhsInLhs, Bool.and_eq_true, isFactor_iff, Bool.not_eq_true',
    ← Bool.not_eq_true, ruleEq_iff, ne_eq]

theorem mem_nodes {rs : List Rule} {p : Rule} : p ∈ nodes rs ↔ p ∈ rs := by
  induction rs with
  | nil => simp [nodes]
  | cons r rs ih =>
    simp only [nodes, List.mem_cons, List.mem_filter, ih, Bool.not_eq_true', ← Bool.not_eq_true,
      ruleEq_iff]
    constructor
    · rintro (h | ⟨h, _⟩)
      · exact Or.inl h
      · exact Or.inr h
    · rintro (h | h)
      · exact Or.inl h
      · by_cases e : p = r
        · exact Or.inl e
        · exact Or.inr ⟨h, fun e' => e e'.symm⟩

theorem nodup_nodes (rs : List Rule) : (nodes rs).Nodup := by
  induction rs with
  | nil => simp [nodes]
  | cons r rs ih =>
    simp only [nodes, List.nodup_cons]
    refine ⟨?_, ih.filter _⟩
    simp [List.mem_filter, ruleEq_iff]

theorem mem_leaves {g : List Rule} {p : Rule} :
    p ∈ leaves g ↔ p ∈ g ∧ ∀ q ∈ g, ¬ (p ≠ q ∧ p.1 <:+: q.1) := by
  simp only [leaves, List.mem_filter, Bool.not_eq_true', ← Bool.not_eq_true, List.any_eq_true,
    edge_iff, not_exists, not_and]

end Nisaba
