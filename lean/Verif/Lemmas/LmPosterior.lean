import Verif.Model.LmPosterior
import Mathlib.Algebra.BigOperators.Ring.List
import Mathlib.Tactic.Ring
import Mathlib.Tactic.FieldSimp
/-! # Lemmas about posterior costs -/
namespace Nisaba.LmPosterior
open Nisaba.PairLM

section
variable {K : Type}

/-- Candidate and weight of an arc. -/
def LArc.pair (a : LArc K) : Str × K := (a.cand, a.weight)

theorem numberSlot_pair (n : Nat) (s : Cands K) : (numberSlot n s).map LArc.pair = s := by
  induction s generalizing n with
  | nil => rfl
  | cons p l ih => simp [numberSlot, ih, LArc.pair]

theorem numberSlot_range {n : Nat} {s : Cands K} {a : LArc K} (h : a ∈ numberSlot n s) :
    n ≤ a.id ∧ a.id < n + s.length := by
  induction s generalizing n with
  | nil => simp [numberSlot] at h
  | cons p l ih =>
    simp only [numberSlot, List.mem_cons] at h
    rcases h with rfl | h
    · simp
    · have := ih h
      simp only [List.length_cons]
      omega

theorem numberSlot_mem {n : Nat} {s : Cands K} {a : LArc K} (h : a ∈ numberSlot n s) : a.pair ∈ s := by
  rw [← numberSlot_pair n s]
  exact List.mem_map.2 ⟨a, h, rfl⟩

theorem numberSlot_inj {n : Nat} {s : Cands K} (hd : (s.map (·.1)).Nodup) {a b : LArc K}
    (ha : a ∈ numberSlot n s) (hb : b ∈ numberSlot n s) : b.id = a.id ↔ b.cand = a.cand := by
  induction s generalizing n with
  | nil => simp [numberSlot] at ha
  | cons p l ih =>
    simp only [List.map_cons, List.nodup_cons] at hd
    simp only [numberSlot, List.mem_cons] at ha hb
    have key : ∀ c ∈ numberSlot (n + 1) l, c.id ≠ n ∧ c.cand ≠ p.1 := by
      intro c hc
      refine ⟨by have := numberSlot_range hc; omega, fun e => hd.1 ?_⟩
      exact List.mem_map.2 ⟨c.pair, numberSlot_mem hc, e⟩
    rcases ha with rfl | ha <;> rcases hb with rfl | hb
    · simp
    · have := key b hb
      simp [this.1, this.2]
    · have := key a ha
      simp [this.1.symm, this.2.symm]
    · exact ih hd.2 ha hb

theorem numberLattice_lower {n : Nat} {words : List (Cands K)} {a : LArc K}
    (h : a ∈ (numberLattice n words).flatten) : n ≤ a.id := by
  induction words generalizing n with
  | nil => simp [numberLattice] at h
  | cons s ss ih =>
    simp only [numberLattice, List.flatten_cons, List.mem_append] at h
    rcases h with h | h
    · exact (numberSlot_range h).1
    · have := ih h; omega

theorem numberSlot_get {n : Nat} {s : Cands K} {a : LArc K} (h : a ∈ numberSlot n s) :
    s[a.id - n]? = some a.pair := by
  induction s generalizing n with
  | nil => simp [numberSlot] at h
  | cons p l ih =>
    simp only [numberSlot, List.mem_cons] at h
    rcases h with rfl | h
    · simp [LArc.pair]
    · have h1 := numberSlot_range h
      have e : a.id - n = (a.id - (n + 1)) + 1 := by omega
      rw [e, List.getElem?_cons_succ, ih h]

theorem numberLattice_get {n : Nat} {words : List (Cands K)} {a : LArc K}
    (h : a ∈ (numberLattice n words).flatten) : words.flatten[a.id - n]? = some a.pair := by
  induction words generalizing n with
  | nil => simp [numberLattice] at h
  | cons s ss ih =>
    simp only [numberLattice, List.flatten_cons, List.mem_append] at h ⊢
    rcases h with h | h
    · have h1 := numberSlot_range h
      rw [List.getElem?_append_left (by omega)]
      exact numberSlot_get h
    · have h1 := numberLattice_lower h
      rw [List.getElem?_append_right (by omega), ← ih h]
      congr 1
      omega

theorem numberLattice_length (n : Nat) (words : List (Cands K)) :
    (numberLattice n words).length = words.length := by
  induction words generalizing n with
  | nil => rfl
  | cons s ss ih => simp [numberLattice, ih]

/-- The numbered arcs of a word. -/
theorem numberLattice_slot {n i : Nat} {words : List (Cands K)} {s : Cands K} (h : words[i]? = some s) :
    ∃ m, (numberLattice n words)[i]? = some (numberSlot m s) ∧ ∀ a ∈ numberSlot m s,
      a ∈ (numberLattice n words).flatten := by
  induction words generalizing n i with
  | nil => simp at h
  | cons t ss ih =>
    cases i with
    | zero =>
      simp only [List.getElem?_cons_zero, Option.some.injEq] at h
      subst h
      exact ⟨n, rfl, fun a ha => by simp [numberLattice, ha]⟩
    | succ i =>
      simp only [List.getElem?_cons_succ] at h
      obtain ⟨m, h1, h2⟩ := ih (n := n + t.length) h
      exact ⟨m, by simpa [numberLattice] using h1, fun a ha => by
        have := h2 a ha
        simp only [numberLattice, List.flatten_cons, List.mem_append]
        exact .inr this⟩

/-- All ways to choose a candidate for each word. -/
def choices : List (Cands K) → List (Cands K)
  | [] => [[]]
  | s :: ss => s.flatMap fun p => (choices ss).map (p :: ·)

theorem choices_eq (n : Nat) (words : List (Cands K)) :
    choices words = (paths (numberLattice n words)).map (List.map LArc.pair) := by
  induction words generalizing n with
  | nil => simp [choices, paths, numberLattice]
  | cons s ss ih =>
    simp only [choices, paths, numberLattice]
    conv => lhs; rw [← numberSlot_pair n s]
    rw [List.flatMap_map, List.map_flatMap]
    congr 1
    funext a
    rw [ih (n + s.length), List.map_map, List.map_map]
    rfl

/-- A way has the index of an arc of word `i` once if its candidate there is that of the arc, else not. -/
theorem count_path {n i : Nat} {words : List (Cands K)} (hd : ∀ s ∈ words, (s.map (·.1)).Nodup)
    {p : List (LArc K)} (hp : p ∈ paths (numberLattice n words)) {slot : List (LArc K)}
    (hs : (numberLattice n words)[i]? = some slot) {a : LArc K} (ha : a ∈ slot) :
    (p.filter fun b => b.id == a.id).length = if (p[i]?).map (·.cand) = some a.cand then 1 else 0 := by
  induction words generalizing n i p with
  | nil => simp [numberLattice] at hs
  | cons s ss ih =>
    simp only [numberLattice, paths, List.mem_flatMap, List.mem_map] at hp
    obtain ⟨b, hb, q, hq, rfl⟩ := hp
    have hflat : ∀ q ∈ paths (numberLattice (n + s.length) ss), ∀ c ∈ q,
        c ∈ (numberLattice (n + s.length) ss).flatten := by
      generalize numberLattice (n + s.length) ss = lat
      intro q hq
      induction lat generalizing q with
      | nil => simp [paths] at hq; subst hq; simp
      | cons t ts iht =>
        simp only [paths, List.mem_flatMap, List.mem_map] at hq
        obtain ⟨d, hd', r, hr, rfl⟩ := hq
        intro c hc
        simp only [List.flatten_cons, List.mem_append]
        rcases List.mem_cons.1 hc with rfl | hc
        · exact .inl hd'
        · exact .inr (iht r hr c hc)
    cases i with
    | zero =>
      simp only [numberLattice, List.getElem?_cons_zero, Option.some.injEq] at hs
      subst hs
      have hr := numberSlot_range ha
      have hq0 : q.filter (fun b => b.id == a.id) = [] := by
        rw [List.filter_eq_nil_iff]
        intro c hc e
        simp only [beq_iff_eq] at e
        have := numberLattice_lower (hflat q hq c hc)
        omega
      have hinj := numberSlot_inj (hd s (by simp)) ha hb
      simp only [List.filter_cons, hq0, List.getElem?_cons_zero, Option.map_some, Option.some.injEq]
      by_cases e : b.id = a.id
      · simp [e, hinj.1 e]
      · have : b.cand ≠ a.cand := fun e' => e (hinj.2 e')
        simp [e, this]
    | succ i =>
      simp only [numberLattice, List.getElem?_cons_succ] at hs
      have hmem : a ∈ (numberLattice (n + s.length) ss).flatten :=
        List.mem_flatten.2 ⟨slot, List.mem_of_getElem? hs, ha⟩
      have h1 := numberLattice_lower hmem
      have h2 := numberSlot_range hb
      have hne : (b.id == a.id) = false := by simp; omega
      rw [List.filter_cons, hne]
      simp only [Bool.false_eq_true, if_false, List.getElem?_cons_succ]
      exact ih (fun t ht => hd t (by simp [ht])) hq hs
end

variable {K : Type} [Field K] [LinearOrder K]

theorem thresh_congr {α : Type} (k : Nat) (m : K) (l : List α) (f g : α → Str) (c : α → K) :
    arcScoreThresh k m (l.map fun a => (f a, c a)) = arcScoreThresh k m (l.map fun a => (g a, c a)) := by
  unfold arcScoreThresh
  congr 2
  simp only [List.zipIdx_map, List.map_map]
  rfl

theorem assignSlot_eq (k : Nat) (m : K) (ids : List (Option Str)) (costs : List K) (slot : List (LArc K))
    (y : LArc K → Str) (hy : ∀ a ∈ slot, ((ids[a.id]?).getD none).getD [] = y a)
    (c : LArc K → K) (hc : ∀ a ∈ slot, (costs[a.id]?).getD 0 = c a) :
    assignSlot k m ids costs slot = finalFilter k m (slot.map fun a => (y a, c a)) := by
  have hcost : (slot.map fun a => (([] : Str), (costs[a.id]?).getD 0)) = slot.map fun a => ([], c a) :=
    List.map_congr_left fun a ha => by rw [hc a ha]
  have hz : ∀ p ∈ slot.zipIdx, p.1 ∈ slot := by
    intro p hp
    exact (List.mem_zipIdx hp).2.2 ▸ List.getElem_mem _
  unfold assignSlot finalFilter
  simp only [List.length_map]
  by_cases hk : slot.length > k
  · simp only [hk, if_true]
    rw [hcost, thresh_congr k m slot (fun _ => []) y c]
    generalize arcScoreThresh k m (slot.map fun a => (y a, c a)) = keep
    rw [List.zipIdx_map, List.filter_map, List.map_map]
    rw [← List.filterMap_eq_map, List.filterMap_filter]
    refine List.filterMap_congr fun p hp => ?_
    simp only [Function.comp, Prod.map]
    have h1 := hy p.1 (hz p hp)
    have h2 := hc p.1 (hz p hp)
    rw [h1, h2]
    rfl
  · simp only [hk, if_false]
    rw [show slot.map (fun a => (y a, c a)) = slot.zipIdx.map (fun p => (y p.1, c p.1)) by
      conv => lhs; rw [← List.zipIdx_map_fst 0 slot, List.map_map]
      rfl]
    rw [← List.filterMap_eq_map]
    refine List.filterMap_congr fun p hp => ?_
    have h1 := hy p.1 (hz p hp)
    have h2 := hc p.1 (hz p hp)
    simp only [if_true, h1, h2, Function.comp]

theorem uniqueArcId_get {words : List (Cands K)} {a : LArc K} (h : a ∈ (numberLattice 1 words).flatten) :
    a.id < (uniqueArcId words).length ∧ (((uniqueArcId words)[a.id]?).getD none).getD [] = a.cand := by
  have h1 := numberLattice_lower h
  have h2 := numberLattice_get h
  have hlt := (List.getElem?_eq_some_iff.1 h2).1
  obtain ⟨m, e⟩ : ∃ m, a.id = m + 1 := ⟨a.id - 1, by omega⟩
  constructor
  · simp only [uniqueArcId, List.length_cons, List.length_map]; omega
  · rw [e] at h2 ⊢
    simp only [Nat.add_sub_cancel] at h2
    simp only [uniqueArcId, List.getElem?_cons_succ, List.getElem?_map, h2, Option.map_some,
      Option.getD_some, LArc.pair]

/-- The cost of an index. -/
def costOf (score : List Str → K) (tiny : K) (ps : List (List (LArc K))) (id : Nat) : K :=
  let c := (ps.map fun p => pathWeight score p * ((p.filter fun a => a.id == id).length : K)).sum /
    (ps.map (pathWeight score)).sum
  if c = 0 then tiny else c

theorem withLm_eq (wordLevel : Bool) (score : List Str → K) (tiny : K) (k : Nat) (m : K)
    (words : List (Cands K))
    (ht : ((lmPaths wordLevel (numberLattice 1 words)).map (pathWeight score)).sum ≠ 0) :
    ∃ out, withLm wordLevel score tiny k m words = some out ∧ out.length = words.length ∧
      ∀ (i : Nat) (s : Cands K), words[i]? = some s → ∃ b : Nat, (numberLattice 1 words)[i]? = some (numberSlot b s) ∧
        out[i]? = some (finalFilter k m ((numberSlot b s).map fun a =>
          (a.cand, costOf score tiny (lmPaths wordLevel (numberLattice 1 words)) a.id))) := by
  unfold withLm collectCosts
  simp only [ht, if_false]
  refine ⟨_, rfl, by simp [numberLattice_length], fun i s hs => ?_⟩
  obtain ⟨b, h1, h2⟩ := numberLattice_slot (n := 1) hs
  refine ⟨b, h1, ?_⟩
  rw [List.getElem?_map, h1, Option.map_some]
  congr 1
  refine assignSlot_eq k m _ _ _ _ (fun a ha => (uniqueArcId_get (h2 a ha)).2) _ fun a ha => ?_
  have hlt := (uniqueArcId_get (h2 a ha)).1
  rw [List.getElem?_map, List.getElem?_range hlt]
  rfl

end Nisaba.LmPosterior
