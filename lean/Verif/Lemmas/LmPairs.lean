import Verif.Model.LmPairs
import Verif.Lemmas.LatticeText
/-! # Lemmas about pair symbols -/
namespace Nisaba.LmPairs
open Nisaba.LatticeText
open Nisaba.ErrorRate (decimal)

theorem splitSemi_plain {s : Str} (h : 59 ∉ s) : splitSemi s = [s] := by
  induction s with
  | nil => rfl
  | cons c s ih =>
    simp only [List.mem_cons, not_or] at h
    unfold splitSemi
    rw [if_neg (Ne.symm h.1), ih h.2]

theorem splitSemi_pair {a b : Str} (ha : 59 ∉ a) (hb : 59 ∉ b) : splitSemi (a ++ 59 :: b) = [a, b] := by
  induction a with
  | nil =>
    show splitSemi (59 :: b) = _
    unfold splitSemi
    rw [if_pos rfl, splitSemi_plain hb]
  | cons c a ih =>
    simp only [List.mem_cons, not_or] at ha
    show splitSemi (c :: (a ++ 59 :: b)) = _
    unfold splitSemi
    rw [if_neg (Ne.symm ha.1), ih ha.2]

theorem pairFields_plain {s : Str} (h : 59 ∉ s) (a b : Str) : pairFields s ≠ [a, b] := by
  unfold pairFields
  rw [splitSemi_plain h]
  cases s <;> simp

theorem pairFields_pair {a b : Str} (ha : 59 ∉ a) (hb : 59 ∉ b) (ha' : a ≠ []) (hb' : b ≠ []) :
    pairFields (a ++ 59 :: b) = [a, b] := by
  unfold pairFields
  rw [splitSemi_pair ha hb]
  cases a <;> cases b <;> simp_all

theorem decimal_semi (n : Nat) : 59 ∉ decimal n := by
  intro h
  have := decimal_digit n _ h
  revert this
  decide

theorem pairFields_decimal (n m : Nat) :
    pairFields (decimal n ++ 59 :: decimal m) = [decimal n, decimal m] :=
  pairFields_pair (decimal_semi n) (decimal_semi m) (decimal_ne_nil n) (decimal_ne_nil m)

theorem digit_not_space {c : Nat} (h : isDigit c = true) : isSpace c = false := by
  simp only [isDigit, Bool.and_eq_true, decide_eq_true_eq] at h
  simp only [isSpace, Bool.or_eq_false_iff, Bool.and_eq_false_iff, beq_eq_false_iff_ne,
    decide_eq_false_iff_not]
  omega

theorem dropSpace_digits {s : Str} (h : ∀ c ∈ s, isDigit c = true) : s.dropWhile isSpace = s := by
  cases s with
  | nil => rfl
  | cons c s => simp [List.dropWhile_cons, digit_not_space (h c (by simp))]

theorem simpleAtoi_decimal {n : Nat} (h : n < 2 ^ 31) : simpleAtoi (decimal n) = some (n : Int) := by
  have hdig := decimal_digit n
  have ht : (((decimal n).dropWhile isSpace).reverse.dropWhile isSpace).reverse = decimal n := by
    rw [dropSpace_digits hdig, dropSpace_digits (s := (decimal n).reverse) (by simpa using hdig)]
    simp
  have hh : ∀ c, isDigit c = false → ((decimal n).head? == some c) = false := by
    intro c hc
    cases hd : decimal n with
    | nil => exact absurd hd (decimal_ne_nil n)
    | cons d s =>
      have := hdig d (by simp [hd])
      simp only [List.head?_cons, Option.some_beq_some, beq_eq_false_iff_ne]
      rintro rfl
      rw [hc] at this
      simp at this
  unfold simpleAtoi
  simp only [ht, hh 45 (by decide), hh 43 (by decide), Bool.or_self, Bool.false_eq_true, if_false,
    digitsValue_decimal]
  have hall : (decimal n).all isDigit = true := List.all_eq_true.2 hdig
  simp only [decimal_ne_nil, hall, decide_false, Bool.not_true, Bool.or_self, Bool.false_eq_true, if_false]
  rw [if_neg (by omega)]

/-- Symbols with positive labels are pairs of numbers or have no semicolon. -/
def PairTable (syms : Syms) : Prop :=
  (syms.map (·.1)).Nodup ∧
  ∀ p ∈ syms, 0 < p.1 → 59 ∉ p.2 ∨ ∃ n m, n < 2 ^ 31 ∧ m < 2 ^ 31 ∧ p.2 = decimal n ++ 59 :: decimal m

/-- The pair `n;m` has the label `l`. -/
def HasPair (syms : Syms) (l : Int) (n m : Nat) : Prop :=
  0 < l ∧ (l, decimal n ++ 59 :: decimal m) ∈ syms

theorem decimal_inj {n m : Nat} (h : decimal n = decimal m) : n = m := by
  rw [← digitsValue_decimal n, h, digitsValue_decimal]

theorem pairArcs_spec (b : Bool) : ∀ {syms : Syms}, PairTable syms →
    ∃ arcs, pairArcs (if b then 1 else 0) syms = some arcs ∧
      ∀ i l, (i, l) ∈ arcs ↔ ∃ n m, HasPair syms l n m ∧ i = ((if b then m else n : Nat) : Int)
  | [], _ => ⟨[], rfl, by simp [HasPair]⟩
  | (l, s) :: rest, h => by
    obtain ⟨h1, h2⟩ := h
    simp only [List.map_cons, List.nodup_cons] at h1
    obtain ⟨arcs, e, hspec⟩ := pairArcs_spec b (syms := rest) ⟨h1.2, fun p hp => h2 p (by simp [hp])⟩
    have hrest : ∀ l' n m, HasPair ((l, s) :: rest) l' n m ↔
        (l' = l ∧ 0 < l ∧ s = decimal n ++ 59 :: decimal m) ∨ HasPair rest l' n m := by
      intro l' n m
      simp only [HasPair, List.mem_cons, Prod.mk.injEq]
      constructor
      · rintro ⟨a, ⟨rfl, rfl⟩ | c⟩
        · exact .inl ⟨rfl, a, rfl⟩
        · exact .inr ⟨a, c⟩
      · rintro (⟨rfl, a, rfl⟩ | ⟨a, c⟩)
        · exact ⟨a, .inl ⟨rfl, rfl⟩⟩
        · exact ⟨a, .inr c⟩
    by_cases hl : 0 < l
    · rcases h2 (l, s) (by simp) hl with hs | ⟨n, m, hn, hm, hs⟩
      · refine ⟨arcs, ?_, fun i l' => ?_⟩
        · unfold pairArcs
          rw [if_pos hl]
          split
          · rename_i a c hf
            exact absurd hf (pairFields_plain hs a c)
          · exact e
        · rw [hspec]
          refine exists_congr fun n => exists_congr fun m => ?_
          rw [hrest]
          have : ¬ (l' = l ∧ 0 < l ∧ s = decimal n ++ 59 :: decimal m) := by
            rintro ⟨-, -, rfl⟩
            exact hs (by simp)
          simp [this]
      · simp only at hs
        subst hs
        refine ⟨(((if b then m else n : Nat) : Int), l) :: arcs, ?_, fun i l' => ?_⟩
        · unfold pairArcs
          rw [if_pos hl, pairFields_decimal, e]
          cases b
          · simp [simpleAtoi_decimal hn]
          · simp [simpleAtoi_decimal hm]
        · rw [List.mem_cons, hspec]
          constructor
          · rintro (h | ⟨n', m', h, rfl⟩)
            · simp only [Prod.mk.injEq] at h
              exact ⟨n, m, (hrest ..).2 (.inl ⟨h.2, hl, rfl⟩), h.1⟩
            · exact ⟨n', m', (hrest ..).2 (.inr h), rfl⟩
          · rintro ⟨n', m', h, rfl⟩
            rcases (hrest ..).1 h with ⟨rfl, -, hs⟩ | h
            · left
              have hf := pairFields_decimal n m
              rw [hs, pairFields_decimal] at hf
              simp only [List.cons.injEq, and_true] at hf
              rw [decimal_inj hf.1, decimal_inj hf.2]
            · exact .inr ⟨n', m', h, rfl⟩
    · refine ⟨arcs, by unfold pairArcs; rw [if_neg hl]; exact e, fun i l' => ?_⟩
      rw [hspec]
      refine exists_congr fun n => exists_congr fun m => ?_
      rw [hrest]
      simp [hl]

theorem HasPair.unique {syms : Syms} (hk : (syms.map (·.1)).Nodup) {l : Int} {n m n' m' : Nat}
    (h : HasPair syms l n m) (h' : HasPair syms l n' m') : n = n' ∧ m = m' := by
  have := List.inj_on_of_nodup_map hk h.2 h'.2 rfl
  simp only [Prod.mk.injEq, true_and] at this
  have hf := pairFields_decimal n m
  rw [this, pairFields_decimal] at hf
  simp only [List.cons.injEq, and_true] at hf
  exact ⟨decimal_inj hf.1.symm, decimal_inj hf.2.symm⟩

/-- Without zeros. -/
def spell (l : List Nat) : Str := l.filter (· ≠ 0)

theorem wordLabels_eq {w : Str} : wordLabels w = (spell w).map Int.ofNat := by
  induction w with
  | nil => rfl
  | cons c w ih =>
    show push (c : Int) (wordLabels w) = _
    rw [ih]
    unfold push spell
    by_cases hc : c = 0
    · simp [hc]
    · simp [hc]

theorem push_spell (n : Nat) (l : List Nat) :
    push (n : Int) ((spell l).map Int.ofNat) = (spell (n :: l)).map Int.ofNat := by
  unfold push spell
  by_cases hc : n = 0
  · simp [hc]
  · simp [hc]

theorem oneState_to {syms : Syms} {u : List (Int × Int)} {f : Nat → Nat → Nat}
    (hu : ∀ i l, (i, l) ∈ u ↔ ∃ n m, HasPair syms l n m ∧ i = (f n m : Int)) {xs ps : List Int} :
    OneState u xs ps ↔ ∃ ts : List (Int × Nat × Nat), (∀ t ∈ ts, HasPair syms t.1 t.2.1 t.2.2) ∧
      ps = ts.map (·.1) ∧ xs = (spell (ts.map fun t => f t.2.1 t.2.2)).map Int.ofNat := by
  constructor
  · intro h
    induction h with
    | nil => exact ⟨[], by simp, rfl, rfl⟩
    | @cons i o xs ys ha _ ih =>
      obtain ⟨ts, h1, rfl, rfl⟩ := ih
      obtain ⟨n, m, hp, rfl⟩ := (hu ..).1 ha
      refine ⟨(o, n, m) :: ts, ?_, ?_, ?_⟩
      · intro t ht
        rcases List.mem_cons.1 ht with rfl | ht
        · exact hp
        · exact h1 t ht
      · unfold push
        rw [if_neg (by have := hp.1; omega)]
        rfl
      · rw [push_spell]
        rfl
  · rintro ⟨ts, h1, rfl, rfl⟩
    induction ts with
    | nil => exact .nil
    | cons t ts ih =>
      have hp := h1 t (by simp)
      have := OneState.cons ((hu (f t.2.1 t.2.2) t.1).2 ⟨_, _, hp, rfl⟩) (ih fun s hs => h1 s (by simp [hs]))
      rw [push_spell] at this
      unfold push at this
      rw [if_neg (by have := hp.1; omega)] at this
      exact this

theorem oneState_swap {u : List (Int × Int)} {xs ys : List Int} :
    OneState (u.map Prod.swap) xs ys ↔ OneState u ys xs := by
  have key : ∀ {u : List (Int × Int)} {xs ys : List Int}, OneState u xs ys → OneState (u.map Prod.swap) ys xs := by
    intro u xs ys h
    induction h with
    | nil => exact .nil
    | cons ha _ ih => exact .cons (List.mem_map.2 ⟨_, ha, rfl⟩) ih
  refine ⟨fun h => ?_, key⟩
  have := key h
  rw [List.map_map] at this
  simpa using this

theorem covered_spec (u : List (Int × Int)) (x : Int) : x ∈ coveredChars u ↔ 0 < x ∧ ∃ l, (x, l) ∈ u := by
  have key : ∀ (u : List (Int × Int)) (set : List Int),
      x ∈ u.foldl (fun set a => if 0 < a.1 && !set.contains a.1 then set ++ [a.1] else set) set ↔
        x ∈ set ∨ (0 < x ∧ ∃ l, (x, l) ∈ u) := by
    intro u
    induction u with
    | nil => simp
    | cons a u ih =>
      intro set
      rw [List.foldl_cons, ih]
      obtain ⟨i, l⟩ := a
      by_cases hc : (0 < i && !set.contains i) = true
      · rw [if_pos hc]
        simp only [Bool.and_eq_true, decide_eq_true_eq] at hc
        simp only [List.mem_append, List.mem_cons, List.not_mem_nil, or_false, Prod.mk.injEq]
        constructor
        · rintro ((h | rfl) | ⟨h, l', h'⟩)
          · exact .inl h
          · exact .inr ⟨hc.1, l, .inl ⟨rfl, rfl⟩⟩
          · exact .inr ⟨h, l', .inr h'⟩
        · rintro (h | ⟨h, l', ⟨rfl, -⟩ | h'⟩)
          · exact .inl (.inl h)
          · exact .inl (.inr rfl)
          · exact .inr ⟨h, l', h'⟩
      · rw [if_neg hc]
        simp only [List.mem_cons, Prod.mk.injEq]
        constructor
        · rintro (h | ⟨h, l', h'⟩)
          · exact .inl h
          · exact .inr ⟨h, l', .inr h'⟩
        · rintro (h | ⟨h, l', ⟨rfl, -⟩ | h'⟩)
          · exact .inl h
          · left
            simp only [Bool.and_eq_true, decide_eq_true_eq, Bool.not_eq_true', not_and,
              Bool.not_eq_false, List.contains_iff_mem] at hc
            exact hc h
          · exact .inr ⟨h, l', h'⟩
  rw [coveredChars, key]
  simp

end Nisaba.LmPairs
