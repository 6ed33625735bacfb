import Verif.Lemmas.LmBackoff
import Mathlib.Algebra.Group.Nat.Defs
import Mathlib.Algebra.Order.Monoid.Unbundled.Basic
/-!
# C125: the language model with failure arcs gives the costs of the backoff model
-/
namespace Nisaba.Props
open Nisaba.LmBackoff

variable {K : Type} [AddCommMonoid K]

theorem lmRank_bound (rank : Nat → Nat) : ∀ n, ∃ N, ∀ q < n, rank q < N
  | 0 => ⟨0, by simp⟩
  | n + 1 => by
    obtain ⟨N, h⟩ := lmRank_bound rank n
    refine ⟨max N (rank n + 1), fun q hq => ?_⟩
    by_cases e : q = n
    · subst e; omega
    · have := h q (by omega); omega

/-- **C125.**  `MakePhiMatcherLM` ends, and then a string of words costs in composition with the model
what the backoff model gives it.  `N` says only that the recursion ends.  No word leads back to the start
state unless that is a final state. -/
theorem C125_score (m : Lm K) (h : IsBackoff m) (hs : m.start < m.states.length)
    (hback : ∀ q, ∀ a ∈ m.arcs q, 0 < a.label → a.next = m.start → (m.state m.start).final ≠ none) :
    ∃ N, ∀ fuel ≥ N, ∃ m', makePhi fuel m = some m' ∧
      ∀ ws : List Int, ws ≠ [] → (∀ w ∈ ws, 0 < w) →
        ∃ costs, phiScores fuel m' m'.start ws = some costs ∧
          ∀ c, c ∈ costs ↔ BoScore m m.start ws c := by
  obtain ⟨rank, hr⟩ := h.ends
  obtain ⟨N, hN⟩ := lmRank_bound rank m.states.length
  refine ⟨N, fun fuel hf => ?_⟩
  have hfuel : ∀ q < m.states.length, rank q < fuel := fun q hq => lt_of_lt_of_le (hN q hq) hf
  obtain ⟨m', he, hst, -, harc, hsound, hkept, hall⟩ := makePhi_spec h hr hfuel
  refine ⟨m', he, fun ws hne hw => ?_⟩
  rw [hst]
  refine phiScores_spec h hr harc hfuel
    (fun q => q ≠ m.start ∨ (m.state m.start).final ≠ none) ?_ ?_ ws m.start hs hw
    (fun e => absurd e hne)
  · intro p a ha hl
    by_cases e : a.next = m.start
    · exact .inr (hback p a ha hl e)
    · exact .inl e
  · intro q hq c
    refine ⟨hsound q c, fun hb => ?_⟩
    by_cases e : q = m.start
    · rcases hq with hq | hq
      · exact absurd e hq
      · cases hfin : (m.state m.start).final with
        | none => exact absurd hfin hq
        | some d =>
          subst e
          rw [hkept _ d hfin, hb.unique h (.own hfin)]
    · exact hall q e c hb

/-- What is left of the model: its arcs with the backoff arc made a failure arc, and for every state
except the start state the cost of ending there. -/
theorem C125_final (m : Lm K) (h : IsBackoff m) :
    ∃ N, ∀ fuel ≥ N, ∃ m', makePhi fuel m = some m' ∧ m'.start = m.start ∧
      (∀ q, q ≠ m.start → ∀ c, (m'.state q).final = some c ↔ BoFinal m q c) ∧
      (∀ q c, (m.state q).final = some c → (m'.state q).final = some c) ∧
      ∀ q b, b ∈ (m'.state q).arcs ↔
        (b ∈ (m.state q).arcs ∧ b.label ≠ 0) ∨ (b.label = -2 ∧ ⟨0, b.weight, b.next⟩ ∈ (m.state q).arcs) := by
  obtain ⟨rank, hr⟩ := h.ends
  obtain ⟨N, hN⟩ := lmRank_bound rank m.states.length
  refine ⟨N, fun fuel hf => ?_⟩
  have hfuel : ∀ q < m.states.length, rank q < fuel := fun q hq => lt_of_lt_of_le (hN q hq) hf
  obtain ⟨m', he, hst, -, harc, hsound, hkept, hall⟩ := makePhi_spec h hr hfuel
  refine ⟨m', he, hst, fun q hq c => ⟨hsound q c, hall q hq c⟩, hkept, fun q b => ?_⟩
  rw [harc q b]
  constructor
  · rintro ⟨a, ha, rfl⟩
    by_cases h0 : a.label = 0
    · refine .inr ⟨by simp [re, h0, phi], ?_⟩
      obtain ⟨l, w, n⟩ := a
      simp only at h0
      subst h0
      simpa [re] using ha
    · exact .inl ⟨by simpa [re, h0] using ha, by simpa [re, h0] using h0⟩
  · rintro (⟨ha, h0⟩ | ⟨hl, ha⟩)
    · exact ⟨b, ha, by simp [re, h0]⟩
    · refine ⟨_, ha, ?_⟩
      obtain ⟨l, w, n⟩ := b
      simp only at hl
      subst hl
      simp [re, phi]

/-- If no state has two arcs with the same label, a string has at most one cost: it is not counted
again by backing off although it has an arc. -/
theorem C125_once (m : Lm K) (h : IsBackoff m)
    (hd : ∀ q, (m.arcs q).Pairwise fun a b => a.label ≠ b.label) (q : Nat) (ws : List Int) (c d : K)
    (hc : BoScore m q ws c) (hd' : BoScore m q ws d) : c = d := by
  have huniq : ∀ {q : Nat} {a b : Arc K}, a ∈ m.arcs q → b ∈ m.arcs q → a.label = b.label → a = b := by
    intro q a b ha hb hl
    by_contra hne
    have hp := hd q
    obtain ⟨i, hi, rfl⟩ := List.getElem_of_mem ha
    obtain ⟨j, hj, rfl⟩ := List.getElem_of_mem hb
    rcases Nat.lt_trichotomy i j with hij | hij | hij
    · exact List.pairwise_iff_getElem.1 hp i j hi hj hij hl
    · subst hij; exact hne rfl
    · exact List.pairwise_iff_getElem.1 hp j i hj hi hij hl.symm
  have hstep : ∀ {q : Nat} {w : Int} {c : K} {r : Nat}, BoStep m q w c r →
      ∀ {d s}, BoStep m q w d s → c = d ∧ r = s := by
    intro q w c r h1
    induction h1 with
    | own ha hl =>
      intro d s h2
      cases h2 with
      | own hb hl' =>
        have := huniq ha hb (hl.trans hl'.symm)
        subst this
        exact ⟨rfl, rfl⟩
      | back hno _ _ _ => exact absurd hl (hno _ ha)
    | back hno he h0 _ ih =>
      intro d s h2
      cases h2 with
      | own hb hl' => exact absurd hl' (hno _ hb)
      | back _ hf h0' hs =>
        have := zero_unique h he h0 hf h0'
        subst this
        obtain ⟨e1, e2⟩ := ih hs
        exact ⟨by rw [e1], e2⟩
  induction hc generalizing d with
  | nil hf =>
    cases hd' with
    | nil hf' => exact hf.unique h hf'
  | cons h1 _ ih =>
    cases hd' with
    | cons h2 h3 =>
      obtain ⟨rfl, rfl⟩ := hstep h1 h2
      rw [ih _ h3]

/-- Backing off must end: from states without final cost that back off to each other for ever, the
conversion does not return. -/
theorem C125_endless (m : Lm K) (S : Nat → Prop)
    (hS : ∀ q, S q → (m.state q).final = none ∧ ∃ a as, (m.state q).arcs = a :: as ∧ a.label = 0 ∧ S a.next)
    (q : Nat) (hq : S q) (hlen : q < m.states.length) (hst : q ≠ m.start)
    (hfirst : ∀ p < q, (m.state p).final ≠ none ∨ p = m.start) : ∀ fuel, makePhi fuel m = none := by
  have hcost : ∀ fuel p, S p → finalCost fuel m p = none := by
    intro fuel
    induction fuel with
    | zero => intro p _; rfl
    | succ fuel ih =>
      intro p hp
      obtain ⟨hf, a, as, ha, h0, hn⟩ := hS p hp
      unfold finalCost
      simp only [hf, getBackoff, ha, h0, ne_eq, not_true_eq_false, if_false, ih _ hn]
  intro fuel
  have hfill : ∀ qs : List Nat, (∀ p ∈ qs, (m.state p).final ≠ none ∨ p = m.start) → ∀ rest,
      fillFinals fuel (qs ++ q :: rest) m = none := by
    intro qs
    induction qs with
    | nil =>
      intro _ rest
      simp only [List.nil_append, fillFinals, (hS q hq).1, hcost fuel q hq]
      simp [hst]
    | cons p qs ih =>
      intro hp rest
      have hc : ((m.state p).final.isNone && p != m.start) = false := by
        rcases hp p (by simp) with h | h
        · cases hf : (m.state p).final with
          | none => exact absurd hf h
          | some c => simp
        · simp [h]
      simp only [List.cons_append, fillFinals, hc]
      exact ih (fun p' hp' => hp p' (by simp [hp'])) rest
  have hsplit : List.range m.states.length =
      List.range q ++ q :: (List.range (m.states.length - q - 1)).map (q + 1 + ·) := by
    have e : m.states.length = q + 1 + (m.states.length - q - 1) := by omega
    conv => lhs; rw [e, List.range_add, List.range_succ]
    simp
  unfold makePhi
  rw [hsplit, hfill _ (fun p hp => hfirst p (by simpa using hp))]

/-! ## A model with two words -/
namespace LmExample

/-- State 0: all words; state 1: start; state 2: after word 1, not final; word 1 leads to 2, word 2 to 0. -/
def model : Lm Nat :=
  ⟨1, [⟨some 3, [⟨1, 5, 2⟩, ⟨2, 6, 0⟩]⟩,
    ⟨none, [⟨0, 1, 0⟩, ⟨1, 2, 2⟩]⟩,
    ⟨none, [⟨0, 4, 0⟩, ⟨2, 1, 0⟩]⟩]⟩

theorem model_arcs (q : Nat) : model.arcs q = [⟨1, 5, 2⟩, ⟨2, 6, 0⟩] ∧ q = 0 ∨
    model.arcs q = [⟨0, 1, 0⟩, ⟨1, 2, 2⟩] ∧ q = 1 ∨ model.arcs q = [⟨0, 4, 0⟩, ⟨2, 1, 0⟩] ∧ q = 2 ∨
    model.arcs q = [] ∧ 3 ≤ q := by
  match q with
  | 0 => exact .inl ⟨rfl, rfl⟩
  | 1 => exact .inr (.inl ⟨rfl, rfl⟩)
  | 2 => exact .inr (.inr (.inl ⟨rfl, rfl⟩))
  | q + 3 => exact .inr (.inr (.inr ⟨rfl, by omega⟩))

theorem isBackoff : IsBackoff model := by
  refine ⟨?_, ?_, ?_, ?_, ?_, ⟨id, ?_⟩⟩ <;> intro q <;>
    rcases model_arcs q with ⟨h, e⟩ | ⟨h, e⟩ | ⟨h, e⟩ | ⟨h, e⟩ <;>
    first
      | (rw [h]; simp [model, e])
      | (rw [h]; simp [model]; omega)

/-- The hypotheses of the theorems hold of it. -/
example : IsBackoff model ∧ model.start < model.states.length ∧
    (∀ q, ∀ a ∈ model.arcs q, 0 < a.label → a.next = model.start →
      (model.state model.start).final ≠ none) ∧
    ∀ q, (model.arcs q).Pairwise fun a b => a.label ≠ b.label := by
  refine ⟨isBackoff, by decide, ?_, ?_⟩ <;> intro q <;>
    rcases model_arcs q with ⟨h, e⟩ | ⟨h, e⟩ | ⟨h, e⟩ | ⟨h, e⟩ <;> rw [h] <;> simp [model]

/-- Words 2 and 1: the start state backs off for 2 and then word 1 is found; ending backs off. -/
example : BoScore model 1 [2, 1] (1 + 6 + (5 + (4 + 3))) := by
  refine .cons (c := 1 + 6) (r := 0) ?_ (.cons (c := 5) (r := 2) ?_ (.nil ?_))
  · exact .back (e := ⟨0, 1, 0⟩) (by simp [model, Lm.arcs, Lm.state]) (by simp [model, Lm.arcs, Lm.state]) rfl
      (.own (a := ⟨2, 6, 0⟩) (by simp [model, Lm.arcs, Lm.state]) rfl)
  · exact .own (a := ⟨1, 5, 2⟩) (by simp [model, Lm.arcs, Lm.state]) rfl
  · exact .back (e := ⟨0, 4, 0⟩) rfl (by simp [model, Lm.arcs, Lm.state]) rfl (.own rfl)

example : (makePhi 5 model).bind (fun m' => phiScores 5 m' m'.start [2, 1]) = some [19] := by
  decide +kernel

/-- Two states that back off to each other. -/
def circle : Lm Nat := ⟨0, [⟨some 0, [⟨1, 0, 1⟩]⟩, ⟨none, [⟨0, 1, 2⟩]⟩, ⟨none, [⟨0, 1, 1⟩]⟩]⟩

example (fuel : Nat) : makePhi fuel circle = none := by
  refine C125_endless circle (fun q => q = 1 ∨ q = 2) ?_ 1 (.inl rfl) (by decide) (by decide) ?_ fuel
  · rintro q (rfl | rfl)
    · exact ⟨rfl, _, _, rfl, rfl, .inr rfl⟩
    · exact ⟨rfl, _, _, rfl, rfl, .inl rfl⟩
  · intro p hp
    have : p = 0 := by omega
    subst this
    exact .inr rfl

end LmExample

end Nisaba.Props
