import Verif.Lemmas.Scan
import Verif.Lemmas.Compose
/-!
# Properties of the rule compiler (C01 – C05)
-/
namespace Nisaba.Props

/-- Splitting rules `rules` into `sets` is correct. -/
structure CorrectSplit (rules : List Rule) (sets : List (List Rule)) : Prop where
  /-- every distinct rule occurs, and exactly once -/
  nodup : sets.flatten.Nodup
  complete : ∀ p, p ∈ sets.flatten ↔ p ∈ rules
  /-- no left-hand side occurs inside another one of the same set -/
  independent : ∀ S ∈ sets, ∀ p ∈ S, ∀ q ∈ S, p ≠ q → ¬ p.1 <:+: q.1
  /-- the rule with the containing left-hand side is in a strictly earlier set -/
  bleeding : ∀ (i j : Nat) (S S' : List Rule), sets[i]? = some S → sets[j]? = some S' →
    ∀ p ∈ S, ∀ q ∈ S', p ≠ q → p.1 <:+: q.1 → j < i

/-- C01. The splitter fails exactly on rule lists with two different rules for one left-hand side,
and otherwise returns a correct split.  (The bounded loop of the model never runs out of fuel.) -/
theorem C01_partition (rules : List Rule) :
    ((∃ p ∈ rules, ∃ q ∈ rules, p ≠ q ∧ p.1 = q.1) → partitionUnordered rules = .valueError) ∧
    ((¬ ∃ p ∈ rules, ∃ q ∈ rules, p ≠ q ∧ p.1 = q.1) →
      ∃ sets, partitionUnordered rules = .ok sets ∧ CorrectSplit rules sets) := by
  constructor
  · rintro ⟨p, hp, q, hq, h⟩
    exact peel_conflict (Nat.le_refl _) ⟨p, mem_nodes.2 hp, q, mem_nodes.2 hq, h⟩
  · intro hno
    cases h : partitionUnordered rules with
    | ok sets =>
      have G := goodSplit_of_ok h
      exact ⟨sets, rfl, G.nodup (nodup_nodes rules), fun p => (G.mem p).trans mem_nodes,
        G.free, G.order⟩
    | valueError =>
      obtain ⟨p, hp, q, hq, hh⟩ := peel_valueError h
      exact absurd ⟨p, mem_nodes.1 hp, q, mem_nodes.1 hq, hh⟩ hno
    | fuel => exact absurd h (peel_ne_fuel (Nat.le_refl _))

/-- Non-trivial instance: `xAy`, `A`, `A` again and `z`: two sets. -/
example : partitionUnordered [([1], [7]), ([2, 1, 3], [8]), ([1], [7]), ([4], [])] =
    .ok [[([2, 1, 3], [8]), ([4], [])], [([1], [7])]] := by decide

example : partitionUnordered [([1], [7]), ([1], [8])] = .valueError := by decide

/-- C02. Permuting or duplicating the lines of a rule file changes neither whether it compiles nor
the relation it compiles to. -/
theorem C02_line_order {rules rules' : List Rule} (h : ∀ p, p ∈ rules ↔ p ∈ rules')
    (σ : Nat → Prop) : fstFromRules rules σ = fstFromRules rules' σ := by
  have hs : SameSplit (partitionUnordered rules) (partitionUnordered rules') :=
    peel_same (Nat.le_refl _) (Nat.le_refl _) (fun p => by rw [mem_nodes, mem_nodes, h p])
  have key : ∀ a b, SameSets a b → rewriteAndCompose a σ = rewriteAndCompose b σ := by
    intro a
    have aux : ∀ a b, SameSets a b →
        a.map (fun s => Rewrite (Rel.stringMap s) σ) =
        b.map (fun s => Rewrite (Rel.stringMap s) σ) := by
      intro a
      induction a with
      | nil => intro b hb; cases b with
        | nil => rfl
        | cons => simp [SameSets] at hb
      | cons x xs ih =>
        intro b hb
        cases b with
        | nil => simp [SameSets] at hb
        | cons y ys =>
          obtain ⟨h1, h2⟩ := hb
          have : Rel.stringMap x = Rel.stringMap y := by
            funext l r; exact propext (h1 (l, r))
          simp only [List.map_cons, this, ih ys h2]
    intro b hb
    unfold rewriteAndCompose
    rw [aux a b hb]
  unfold fstFromRules
  cases h1 : partitionUnordered rules <;> cases h2 : partitionUnordered rules' <;>
    rw [h1, h2] at hs <;> simp [SameSplit] at hs ⊢
  exact key _ _ hs

/-- C02 on texts: the rewritten text does not depend on the order of the lines. -/
theorem C02_line_order_text {rules rules' : List Rule} (h : ∀ p, p ∈ rules ↔ p ∈ rules')
    (hne : ∀ p ∈ rules, p.1 ≠ []) (s : Str) : applyRules rules s = applyRules rules' s := by
  have hne' : ∀ p ∈ rules', p.1 ≠ [] := fun p hp => hne p ((h p).2 hp)
  have hσ : ∀ t : Str, Over (fun _ => True) t := fun _ _ _ => trivial
  have key := C02_line_order h (fun _ => True)
  cases h1 : fstFromRules rules (fun _ => True) with
  | some R =>
    rw [h1] at key
    have a := (fstFromRules_iff hne (fun p _ => hσ _) h1 (s := s) (t := applyRules rules s)).2
      ⟨hσ _, rfl⟩
    exact ((fstFromRules_iff hne' (fun p _ => hσ _) key.symm).1 a).2
  | none =>
    rw [h1] at key
    have e1 : stages rules = [] := by
      unfold fstFromRules at h1; unfold stages
      cases hp : partitionUnordered rules <;> rw [hp] at h1 <;> simp at h1 ⊢
    have e2 : stages rules' = [] := by
      unfold fstFromRules at key; unfold stages
      cases hp : partitionUnordered rules' <;> rw [hp] at key <;> simp at key ⊢
    simp [applyRules, e1, e2]

example : ∀ p : Rule, p ∈ [([1], [7]), ([2, 1], [8])] ↔ p ∈ [([2, 1], [8]), ([1], [7]), ([1], [7])] := by
  intro p; simp; exact Or.comm

/-- C03. A rule file without conflicting rules compiles, and the compiled rewriter relates every
string over the alphabet to exactly one string, again over the alphabet.  (`rules_from_string_path`,
rule.py:85-93, rejects empty left-hand sides.) -/
theorem C03_total_single_valued {rules : List Rule} {σ : Nat → Prop}
    (hno : ¬ ∃ p ∈ rules, ∃ q ∈ rules, p ≠ q ∧ p.1 = q.1)
    (hne : ∀ p ∈ rules, p.1 ≠ []) (hσ : ∀ p ∈ rules, Over σ p.2) :
    ∃ R, fstFromRules rules σ = some R ∧
      ∀ s, Over σ s → ∃ t, R s t ∧ Over σ t ∧ ∀ t', R s t' → t' = t := by
  obtain ⟨sets, hs, _⟩ := (C01_partition rules).2 hno
  have h : fstFromRules rules σ = some (rewriteAndCompose sets σ) := by simp [fstFromRules, hs]
  refine ⟨_, h, fun s hs' => ⟨applyRules rules s, ?_, ?_, ?_⟩⟩
  · exact (fstFromRules_iff hne hσ h).2 ⟨hs', rfl⟩
  · unfold applyRules stages
    rw [hs]
    exact over_scanAll (fun st hst p hp => hσ p (mem_sets_rules hs hst hp)) hs'
  · intro t' ht'
    exact ((fstFromRules_iff hne hσ h).1 ht').2

/-- The rewrite of one rule set is defined declaratively (`CDRewrite`), so single-valuedness is a
fact about overlapping matches: in `aXb` with rules `aX → 1`, `Xb → 2` the leftmost match wins. -/
example : applyRules [([1, 2], [10]), ([2, 3], [20])] [1, 2, 3] = [10, 3] := by decide

/-- C04. Composing machines in the order chosen by the size heuristic denotes their left-to-right
composition, whatever sizes the intermediate machines have. -/
theorem C04_compose_heuristic (size : Fst → Fst → Nat) (default : Fst) :
    composeFsts size [] default = default ∧
    ∀ (a : Fst) (rest : List Fst),
      (composeFsts size (a :: rest) default).den =
        rest.foldl (fun R b => WRel.comp R b.den) a.den := by
  refine ⟨rfl, fun a rest => ?_⟩
  have := composeFstsAux_den size (a :: rest).length (a :: rest) default (Nat.le_refl _)
  simpa [seqDen, seqComp, composeFsts] using this

/-- The heuristic really reorders: with sizes 5,1,1 the last two machines are composed first. -/
example : (argMin 5 [1]).1 = 1 := by decide

/-- C05. Pipelines: empty pipeline, one more stage at the end, concatenation of pipelines. -/
theorem C05_pipeline {α : Type} :
    (∀ v : α, composeFn1 [] v = v) ∧
    (∀ (fns : List (α → α)) (f : α → α) (v : α), composeFn1 (fns ++ [f]) v = f (composeFn1 fns v)) ∧
    (∀ (fns gns : List (α → α)) (v : α),
      composeFn1 (fns ++ gns) v = composeFn1 gns (composeFn1 fns v)) := by
  refine ⟨fun _ => rfl, ?_, ?_⟩ <;> intros <;> simp [composeFn1]

end Nisaba.Props
