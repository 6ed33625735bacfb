import Verif.Lemmas.Stream
import Verif.Model.Brahmic
/-!
# Rule files whose rewriter leaves none of their left-hand sides in the text
-/
namespace Nisaba

/-- Distinct elements (first occurrence kept last). -/
def dedupNat : List Nat → List Nat
  | [] => []
  | c :: s => bif s.any (Nat.beq c) then dedupNat s else c :: dedupNat s

theorem mem_dedupNat {c : Nat} {s : List Nat} : c ∈ dedupNat s ↔ c ∈ s := by
  induction s with
  | nil => simp [dedupNat]
  | cons d s ih =>
    simp only [dedupNat, Bool.cond_eq_ite]
    split
    · rename_i h
      simp only [List.any_eq_true] at h
      obtain ⟨e, he, hde⟩ := h
      have : d = e := Nat.eq_of_beq_eq_true hde
      subst this
      simp only [List.mem_cons, ih]
      constructor
      · exact Or.inr
      · rintro (rfl | h)
        · exact he
        · exact h
    · simp [ih]

def isOk : Split → Bool
  | .ok _ => true
  | _ => false

/-- The rule file compiles, and its rewriter leaves no left-hand side in any text. -/
def cleanRules (rules : List Rule) : Bool :=
  isOk (partitionUnordered rules) &&
  (rules.all fun p => !p.1.isEmpty) &&
  (let sts := stages rules
   let bad := rules.map (·.1)
   let alpha := dedupNat (rules.flatMap (·.1))
   closed sts bad alpha (explore sts bad alpha 5000 [([], [])] [([], [])]))

theorem cleanRules_ok {rules : List Rule} (h : cleanRules rules = true) :
    ∃ sets, partitionUnordered rules = .ok sets := by
  simp only [cleanRules, Bool.and_eq_true] at h
  cases hp : partitionUnordered rules <;> simp [hp, isOk] at h ⊢

theorem cleanRules_nonempty {rules : List Rule} (h : cleanRules rules = true) :
    LhsNonempty rules := by
  simp only [cleanRules, Bool.and_eq_true, List.all_eq_true] at h
  intro p hp hnil
  have := h.1.2 p hp
  simp [hnil] at this

theorem cleanRules_noLhs {rules : List Rule} (h : cleanRules rules = true) (s : Str) :
    ∀ p ∈ rules, ¬ p.1 <:+: applyRules rules s := by
  obtain ⟨sets, hs⟩ := cleanRules_ok h
  have hne := cleanRules_nonempty h
  have hst : stages rules = sets := by simp [stages, hs]
  have G := goodSplit_of_ok hs
  simp only [cleanRules, Bool.and_eq_true] at h
  have hc := h.2
  intro p hp
  refine noBad_of_closed (sts := stages rules) ?_ ?_ ?_ ?_ ?_ hc s p.1 (List.mem_map_of_mem hp)
  · rw [hst]; intro st hst' q hq; exact hne q (mem_sets_rules hs hst' hq)
  · rw [hst]; intro st hst'; exact G.prefixDet st hst'
  · intro l hl
    obtain ⟨q, hq, rfl⟩ := List.mem_map.1 hl
    exact hne q hq
  · intro l hl c hc
    obtain ⟨q, hq, rfl⟩ := List.mem_map.1 hl
    exact mem_dedupNat.2 (List.mem_flatMap.2 ⟨q, hq, hc⟩)
  · intro c hc
    simp only [lhsChars, List.mem_flatMap] at hc
    obtain ⟨st, hst', q, hq, hcq⟩ := hc
    rw [hst] at hst'
    exact mem_dedupNat.2 (List.mem_flatMap.2 ⟨q, mem_sets_rules hs hst' hq, hcq⟩)

theorem cleanRules_idem {rules : List Rule} (h : cleanRules rules = true) (s : Str) :
    applyRules rules (applyRules rules s) = applyRules rules s := by
  obtain ⟨sets, hs⟩ := cleanRules_ok h
  have hst : stages rules = sets := by simp [stages, hs]
  refine scanAll_fixed fun st hst' p hp => cleanRules_noLhs h s p ?_
  rw [hst] at hst'
  exact mem_sets_rules hs hst' hp

end Nisaba
