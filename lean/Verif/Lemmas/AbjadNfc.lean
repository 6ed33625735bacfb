import Verif.Lemmas.Abjad
/-! Termination of repeated abjad NFC, and splitting at characters that only start a match. -/
set_option maxRecDepth 100000
namespace Nisaba.Abjad
open Nisaba

/-! ## A scan either changes nothing or decreases a measure -/

def sumRank (rank : Nat → Nat) : Str → Nat
  | [] => 0
  | c :: s => rank c + sumRank rank s

/-- Every character counts its rank once for itself and once for every character after it. -/
def posRank (rank : Nat → Nat) : Str → Nat
  | [] => 0
  | c :: s => rank c * (s.length + 1) + posRank rank s

theorem sumRank_append (rank : Nat → Nat) (a b : Str) :
    sumRank rank (a ++ b) = sumRank rank a + sumRank rank b := by
  induction a with
  | nil => simp [sumRank]
  | cons c a ih => simp [sumRank, ih, Nat.add_assoc]

theorem posRank_append (rank : Nat → Nat) (a b : Str) :
    posRank rank (a ++ b) = posRank rank a + b.length * sumRank rank a + posRank rank b := by
  induction a with
  | nil => simp [posRank, sumRank]
  | cons c a ih =>
    simp only [List.cons_append, posRank, ih, sumRank, List.length_append]
    simp only [Nat.mul_add, Nat.mul_one]
    have : rank c * b.length = b.length * rank c := Nat.mul_comm _ _
    omega

/-- A rule that shortens the text, or keeps its length and decreases the measure. -/
def decreasing (rank : Nat → Nat) (p : Rule) : Bool :=
  Nat.blt p.2.length p.1.length ||
    (Nat.beq p.2.length p.1.length && Nat.ble (sumRank rank p.2) (sumRank rank p.1) &&
      Nat.blt (posRank rank p.2) (posRank rank p.1))

theorem scan_cons_eq {st : List Rule} (hne : LhsNonempty st) (c : Nat) (s : Str) :
    scan st 0 (c :: s) = match findRule st (c :: s) with
      | some p => p.2 ++ scan st 0 ((c :: s).drop p.1.length)
      | none => c :: scan st 0 s := by
  have h := scanC_free st [] 0 (c :: s)
  rw [scan]
  cases hf : findRule st (c :: s) with
  | none => rfl
  | some p =>
    simp only
    have hl := hne p (findRule_some hf).1
    have e : ∀ k, scan st k s = scan st 0 (s.drop k) := by
      intro k
      have h1 := scanC_free st [] k s
      have h2 := scanC_free st [] 0 (s.drop k)
      rw [scanC_drop, h2] at h1
      simpa using h1.symm
    rw [e]
    cases hp : p.1 with
    | nil => exact absurd hp hl
    | cons a as => simp

theorem scan_decreasing {st : List Rule} {rank : Nat → Nat} (hne : LhsNonempty st)
    (hd : ∀ p ∈ st, decreasing rank p = true) (s : Str) :
    (scan st 0 s).length ≤ s.length ∧ ((scan st 0 s).length = s.length →
      sumRank rank (scan st 0 s) ≤ sumRank rank s ∧ posRank rank (scan st 0 s) ≤ posRank rank s ∧
      (posRank rank (scan st 0 s) = posRank rank s → scan st 0 s = s)) := by
  generalize hn : s.length = n
  induction n using Nat.strongRecOn generalizing s with
  | _ n ih =>
    cases s with
    | nil => subst hn; simp [scan]
    | cons c s =>
      rw [scan_cons_eq hne]
      cases hf : findRule st (c :: s) with
      | none =>
        simp only [List.length_cons] at hn ⊢
        obtain ⟨h1, h2⟩ := ih s.length (by omega) s rfl
        refine ⟨by omega, fun he => ?_⟩
        have hl : (scan st 0 s).length = s.length := by omega
        obtain ⟨h3, h4, h5⟩ := h2 hl
        simp only [sumRank, posRank, hl]
        refine ⟨by omega, by omega, fun h => ?_⟩
        rw [h5 (by omega)]
      | some p =>
        simp only
        have hm := (findRule_some hf).1
        obtain ⟨t, ht⟩ := (findRule_some hf).2
        have hpl := hne p hm
        have hpos : 0 < p.1.length := List.length_pos_iff.2 hpl
        have hdrop : (c :: s).drop p.1.length = t := by rw [← ht, List.drop_left]
        have hlen : (c :: s).length = p.1.length + t.length := by rw [← ht]; simp
        obtain ⟨h1, h2⟩ := ih t.length (by omega) t rfl
        have hdec := hd p hm
        simp only [decreasing, Bool.or_eq_true, Bool.and_eq_true, Nat.blt_eq, Nat.beq_eq,
          Nat.ble_eq] at hdec
        rw [hdrop, ← hn, hlen, ← ht]
        simp only [List.length_append, sumRank_append, posRank_append]
        refine ⟨by omega, fun he => ?_⟩
        have e1 : p.2.length = p.1.length := by omega
        have e2 : (scan st 0 t).length = t.length := by omega
        obtain ⟨h3, h4, h5⟩ := h2 e2
        obtain ⟨⟨_, h6⟩, h7⟩ := hdec.resolve_left (by omega)
        have h8 : t.length * sumRank rank p.2 ≤ t.length * sumRank rank p.1 :=
          Nat.mul_le_mul_left _ h6
        rw [e2]
        exact ⟨by omega, by omega, fun h => by omega⟩

theorem exists_fixed {f : Str → Str} {rank : Nat → Nat}
    (h : ∀ s, (f s).length ≤ s.length ∧ ((f s).length = s.length →
      posRank rank (f s) ≤ posRank rank s ∧ (posRank rank (f s) = posRank rank s → f s = s)))
    (s : Str) : ∃ n, f (Nat.repeat f n s) = Nat.repeat f n s := by
  have key : ∀ m k (s : Str), s.length = m → posRank rank s = k →
      ∃ n, f (Nat.repeat f n s) = Nat.repeat f n s := by
    intro m
    induction m using Nat.strongRecOn with
    | _ m ihm =>
      intro k
      induction k using Nat.strongRecOn with
      | _ k ihk =>
        intro s hs hk
        have step : (∃ n, f (Nat.repeat f n (f s)) = Nat.repeat f n (f s)) →
            ∃ n, f (Nat.repeat f n s) = Nat.repeat f n s := by
          rintro ⟨n, hn⟩
          have e : ∀ n, Nat.repeat f n (f s) = Nat.repeat f (n + 1) s := by
            intro n
            induction n with
            | zero => rfl
            | succ n ih => rw [Nat.repeat, ih]; rfl
          exact ⟨n + 1, by rw [← e]; exact hn⟩
        obtain ⟨h1, h2⟩ := h s
        rcases Nat.lt_or_ge (f s).length s.length with hlt | hge
        · exact step (ihm (f s).length (by omega) _ (f s) rfl rfl)
        · have hl : (f s).length = s.length := by omega
          obtain ⟨h3, h4⟩ := h2 hl
          rcases Nat.lt_or_ge (posRank rank (f s)) (posRank rank s) with hlt | hge
          · exact step (ihk _ (by omega) (f s) (by omega) rfl)
          · exact ⟨0, h4 (by omega)⟩
  exact key _ _ s rfl rfl

/-- Ranks of the marks, after their canonical combining classes. -/
def markRank (c : Nat) : Nat :=
  bif Nat.beq c 0x64B then 1 else bif Nat.beq c 0x64C then 1 else bif Nat.beq c 0x64D then 2
  else bif Nat.beq c 0x64E then 3 else bif Nat.beq c 0x64F then 4 else bif Nat.beq c 0x650 then 4
  else bif Nat.beq c 0x651 then 5 else bif Nat.beq c 0x652 then 6 else bif Nat.beq c 0x6E1 then 5
  else bif Nat.beq c 0x615 then 5 else bif Nat.beq c 0x622 then 1 else 0

/-- The NFC table is used as one rule set. -/
theorem nfc_stages : stages Data.arabNfc = [Data.arabNfc] := by decide +kernel

theorem nfc_decreasing : (Data.arabNfc.all (decreasing markRank)) = true := by decide +kernel

theorem nfc_scan (s : Str) : nfc s = scan Data.arabNfc 0 s := by
  simp [nfc, applyRules, nfc_stages, scanAll]

theorem nfc_exists_fixed (s : Str) : ∃ n, nfc (Nat.repeat nfc n s) = Nat.repeat nfc n s := by
  refine exists_fixed (rank := markRank) (fun s => ?_) s
  rw [nfc_scan]
  have := scan_decreasing (noConflict_nonempty nfc_ok)
    (fun p hp => List.all_eq_true.1 nfc_decreasing p hp) s
  exact ⟨this.1, fun h => (this.2 h).2⟩

/-! ## The number of passes is not bounded -/

theorem nfc_copy (c d : Nat) (s : Str) (h : findRule Data.arabNfc (c :: d :: s) = none) :
    scan Data.arabNfc 0 (c :: d :: s) = c :: scan Data.arabNfc 0 (d :: s) := by
  rw [scan_cons_eq (noConflict_nonempty nfc_ok), h]

/-- A run of tah signs is unchanged. -/
theorem nfc_tahs (n : Nat) : scan Data.arabNfc 0 (List.replicate n 0x615) = List.replicate n 0x615 := by
  induction n with
  | zero => rfl
  | succ n ih =>
    rw [List.replicate_succ]
    cases n with
    | zero => decide +kernel
    | succ n =>
      rw [List.replicate_succ] at ih ⊢
      rw [nfc_copy _ _ _ (by rfl), ih]

/-- A kasra after a run of tah signs moves one place. -/
theorem nfc_move (a b : Nat) :
    nfc (List.replicate (a + 1) 0x615 ++ 0x650 :: List.replicate b 0x615) =
      List.replicate a 0x615 ++ 0x650 :: List.replicate (b + 1) 0x615 := by
  rw [nfc_scan]
  induction a with
  | zero =>
    show scan Data.arabNfc 0 (0x615 :: 0x650 :: List.replicate b 0x615) = _
    rw [scan_cons_eq (noConflict_nonempty nfc_ok)]
    have : findRule Data.arabNfc (0x615 :: 0x650 :: List.replicate b 0x615) =
      some ([0x615, 0x650], [0x650, 0x615]) := by rfl
    rw [this]
    show [0x650, 0x615] ++ scan Data.arabNfc 0 (List.replicate b 0x615) = _
    rw [nfc_tahs]
    rfl
  | succ a ih =>
    rw [List.replicate_succ, List.replicate_succ] at *
    simp only [List.cons_append] at *
    rw [nfc_copy _ _ _ (by rfl), ih]
    rfl

/-! ## Splitting at a character that only starts matches -/

theorem isPre_split {l a : Str} {c : Nat} {b : Str} (hl : ∀ d ∈ l.tail, d ≠ c) (ha : a ≠ []) :
    isPre l (a ++ c :: b) = isPre l a := by
  rw [Bool.eq_iff_iff, isPre_iff, isPre_iff]
  constructor
  · rintro ⟨t, ht⟩
    rcases Nat.lt_or_ge a.length l.length with hlt | hge
    · exfalso
      have h1 : l[a.length]? = some c := by
        have : (l ++ t)[a.length]? = some c := by rw [ht]; simp
        rwa [List.getElem?_append_left hlt] at this
      cases l with
      | nil => simp at hlt
      | cons x l =>
        cases a with
        | nil => exact ha rfl
        | cons y a =>
          simp only [List.length_cons, List.getElem?_cons_succ] at h1
          exact hl c (List.mem_of_getElem? h1) rfl
    · exact List.prefix_of_prefix_length_le ⟨t, ht⟩ (List.prefix_append _ _) hge
  · exact fun h => h.trans (List.prefix_append _ _)

theorem findRule_split {st : List Rule} {a : Str} {c : Nat} {b : Str}
    (hl : ∀ p ∈ st, ∀ d ∈ p.1.tail, d ≠ c) (ha : a ≠ []) :
    findRule st (a ++ c :: b) = findRule st a := by
  induction st with
  | nil => rfl
  | cons p st ih =>
    simp only [findRule, isPre_split (hl p (by simp)) ha,
      ih fun q hq => hl q (List.mem_cons_of_mem _ hq)]

theorem scan_split {st : List Rule} (hne : LhsNonempty st) {a : Str} {c : Nat} {b : Str}
    (hl : ∀ p ∈ st, ∀ d ∈ p.1.tail, d ≠ c) :
    scan st 0 (a ++ c :: b) = scan st 0 a ++ scan st 0 (c :: b) := by
  generalize hn : a.length = n
  induction n using Nat.strongRecOn generalizing a with
  | _ n ih =>
    cases a with
    | nil => simp [scan]
    | cons x a =>
      have hf := findRule_split (b := b) hl (List.cons_ne_nil x a)
      rw [List.cons_append] at hf ⊢
      rw [scan_cons_eq hne, scan_cons_eq hne x a, hf]
      cases hr : findRule st (x :: a) with
      | none =>
        simp only [List.cons_append]
        rw [ih a.length (by simp at hn; omega) rfl]
      | some p =>
        simp only [List.append_assoc]
        have hm := (findRule_some hr).1
        have hle : p.1.length ≤ (x :: a).length := (findRule_some hr).2.length_le
        have hpos : 0 < p.1.length := List.length_pos_iff.2 (hne p hm)
        rw [← List.cons_append, List.drop_append_of_le_length hle,
          ih ((x :: a).drop p.1.length).length (by simp at hn ⊢; omega) rfl]

/-! ## Text with at most one mark per letter -/

/-- The marks of the NFC table: the characters that are not letters. -/
def isMark (c : Nat) : Bool :=
  memNat [0x653, 0x654, 0x655, 0x670, 0x64B, 0x64C, 0x64D, 0x64E, 0x64F, 0x650, 0x651, 0x652, 0x6E1,
    0x615] c

/-- No two marks in a row. -/
def oneMark : Str → Bool
  | c :: d :: s => !(isMark c && isMark d) && oneMark (d :: s)
  | _ => true

theorem nfc_tails : (Data.arabNfc.all fun p => p.1.tail.all isMark) = true := by decide +kernel

theorem nfc_pairs : (Data.arabNfc.all fun p => Nat.ble 2 p.1.length &&
    bif !(Nat.beq p.1.length 2) || isMark (p.1.headD 0) then (Nat.beq p.1.length 2 || oneMark p.1 == false)
    else strEq (scan Data.arabNfc 0 p.2) p.2 && !(p.2.isEmpty) && !(isMark (p.2.headD 0))) = true := by
  decide +kernel

theorem nfc_split {a : Str} {c : Nat} {b : Str} (hc : isMark c = false) :
    scan Data.arabNfc 0 (a ++ c :: b) = scan Data.arabNfc 0 a ++ scan Data.arabNfc 0 (c :: b) := by
  refine scan_split (noConflict_nonempty nfc_ok) ?_
  intro p hp d hd e
  have := List.all_eq_true.1 (List.all_eq_true.1 nfc_tails p hp) d hd
  rw [e, hc] at this
  exact absurd this (by simp)

theorem nfc_single (c : Nat) : scan Data.arabNfc 0 [c] = [c] := by
  rw [scan_cons_eq (noConflict_nonempty nfc_ok)]
  have : findRule Data.arabNfc [c] = none := by
    cases hf : findRule Data.arabNfc [c] with
    | none => rfl
    | some p =>
      have h := List.all_eq_true.1 nfc_pairs p (findRule_some hf).1
      simp only [Bool.and_eq_true, Nat.ble_eq] at h
      have := (findRule_some hf).2.length_le
      simp at this; omega
  rw [this]
  simp [scan]

/-- A letter with its mark. -/
theorem nfc_pair {c d : Nat} (hc : isMark c = false) :
    ∃ x y, scan Data.arabNfc 0 [c, d] = x :: y ∧ isMark x = false ∧
      scan Data.arabNfc 0 (x :: y) = x :: y := by
  have hs := scan_cons_eq (noConflict_nonempty nfc_ok) c [d]
  cases hf : findRule Data.arabNfc [c, d] with
  | none =>
    rw [hf] at hs
    simp only [nfc_single] at hs
    exact ⟨c, [d], hs, hc, hs⟩
  | some p =>
    rw [hf] at hs
    simp only at hs
    have hm := (findRule_some hf).1
    have hp := (findRule_some hf).2
    have h := List.all_eq_true.1 nfc_pairs p hm
    simp only [Bool.and_eq_true, Nat.ble_eq] at h
    obtain ⟨h1, h2⟩ := h
    have hl : p.1.length = 2 := Nat.le_antisymm (by simpa using hp.length_le) h1
    have he : p.1 = [c, d] := hp.eq_of_length (by simp [hl])
    rw [he] at h2 hs
    simp only [List.length_cons, List.length_nil, List.headD_cons, hc] at h2
    simp [strEq_iff] at h2
    obtain ⟨⟨h3, h4⟩, h5⟩ := h2
    cases hr : p.2 with
    | nil => exact absurd hr h4
    | cons x y =>
      rw [hr] at hs h3 h5
      have e0 : scan Data.arabNfc 0 (List.drop [c, d].length [c, d]) = [] := rfl
      rw [e0, List.append_nil] at hs
      exact ⟨x, y, hs, by simpa using h5, h3⟩

theorem nfc_oneMark (s : Str) (h : oneMark s = true) :
    scan Data.arabNfc 0 (scan Data.arabNfc 0 s) = scan Data.arabNfc 0 s ∧
      ∀ c s', s = c :: s' → isMark c = false →
        ∃ x y, scan Data.arabNfc 0 s = x :: y ∧ isMark x = false := by
  generalize hn : s.length = n
  induction n using Nat.strongRecOn generalizing s with
  | _ n ih =>
    match s, h with
    | [], _ => exact ⟨by simp [scan], by simp⟩
    | [c], _ =>
      rw [nfc_single, nfc_single]
      exact ⟨rfl, fun c' s' e hc => ⟨c, [], rfl, by simp at e; rw [e.1]; exact hc⟩⟩
    | c :: d :: s, h =>
      simp only [oneMark, Bool.and_eq_true] at h
      cases hd : isMark d with
      | false =>
        have e : scan Data.arabNfc 0 (c :: d :: s) = [c] ++ scan Data.arabNfc 0 (d :: s) := by
          rw [← nfc_single c, ← nfc_split hd]; simp
        obtain ⟨h1, h2⟩ := ih _ (by simp at hn ⊢; omega) (d :: s) h.2 rfl
        obtain ⟨x, y, hx, hx'⟩ := h2 d s rfl hd
        rw [e]
        refine ⟨?_, ?_⟩
        · rw [hx, nfc_split hx', nfc_single, ← hx, h1]
        · rintro c' s' e' hc
          simp at e'
          exact ⟨c, scan Data.arabNfc 0 (d :: s), rfl, by rw [e'.1]; exact hc⟩
      | true =>
        have hc : isMark c = false := by
          have := h.1; simp [hd] at this; exact this
        obtain ⟨x, y, hx, hx', hxx⟩ := nfc_pair (d := d) hc
        cases s with
        | nil =>
          rw [hx]
          exact ⟨hxx, fun _ _ _ _ => ⟨x, y, rfl, hx'⟩⟩
        | cons e s =>
          have h3 := h.2
          simp only [oneMark, hd, Bool.true_and, Bool.and_eq_true] at h3
          have he : isMark e = false := by simpa using h3.1
          have e1 : scan Data.arabNfc 0 (c :: d :: e :: s) =
              scan Data.arabNfc 0 [c, d] ++ scan Data.arabNfc 0 (e :: s) := by
            rw [← nfc_split he]; rfl
          obtain ⟨h1, h2⟩ := ih _ (by simp at hn ⊢; omega) (e :: s) h3.2 rfl
          obtain ⟨x', y', hy, hy'⟩ := h2 e s rfl he
          rw [e1, hx]
          refine ⟨?_, fun _ _ _ _ => ⟨x, y ++ scan Data.arabNfc 0 (e :: s), rfl, hx'⟩⟩
          rw [hy, nfc_split hy', hxx, ← hy, h1]

theorem nfc_idem_oneMark {s : Str} (h : oneMark s = true) : nfc (nfc s) = nfc s := by
  simp only [nfc_scan]; exact (nfc_oneMark s h).1

end Nisaba.Abjad
