import Verif.Model.PortFile
/-! Lemmas on the model of nisaba/port/file.cc. -/
namespace Nisaba.PortFile

theorem readLoop_eq (b : Nat) (hb : 0 < b) : ∀ (k needed : Nat) (out rest : Str),
    rest.length ≤ k → readLoop b needed out rest = (out ++ rest.take needed, rest.drop needed) := by
  intro k
  induction k with
  | zero =>
    intro needed out rest h
    have : rest = [] := List.eq_nil_of_length_eq_zero (by omega)
    subst this
    rw [readLoop]
    simp [fread]
  | succ k ih =>
    intro needed out rest h
    rw [readLoop]
    by_cases hn : needed = 0
    · simp [hn]
    · simp only [hn, if_false, fread, List.length_take]
      generalize hm : (if b < needed then b else needed) = m
      have hm0 : 0 < m ∧ m ≤ needed := by split at hm <;> omega
      by_cases hr : 0 < min m rest.length
      · rw [dif_pos hr, ih _ _ _ (by simp only [List.length_drop]; omega)]
        have e : needed = m + (needed - m) := by omega
        rcases Nat.le_total m rest.length with hl | hl
        · rw [Nat.min_eq_left hl, List.append_assoc, ← List.take_add, List.drop_drop, ← e]
        · rw [Nat.min_eq_right hl]
          simp [List.take_of_length_le hl, List.drop_eq_nil_of_le hl,
            List.take_of_length_le (Nat.le_trans hl hm0.2),
            List.drop_eq_nil_of_le (Nat.le_trans hl hm0.2)]
      · rw [dif_neg hr]
        have : rest = [] := List.eq_nil_of_length_eq_zero (by omega)
        simp [this]

theorem toInt32_small {n : Nat} (h : n < 2 ^ 31) : toInt32 (n : Int) = n := by
  unfold toInt32
  have : (n : Int) % 2 ^ 32 = n := by omega
  rw [this, if_pos (by omega)]

theorem readToString_eq {n : Nat} (h : n < 2 ^ 63) (rest : Str) :
    readToString rest n = .ok (min n rest.length : Nat) (rest.take n) (rest.drop n) := by
  unfold readToString
  by_cases h0 : n = 0
  · simp [h0]
  · have e : toInt64 n = (n : Int) := if_pos h
    simp only [h0, if_false, e]
    by_cases hs : (n : Int) < 2 ^ 21
    · rw [if_pos hs, toInt32_small (by omega), if_neg (by omega), Int.toNat_natCast,
        readLoop_eq n (by omega) _ _ _ _ (Nat.le_refl _)]
      simp
    · rw [if_neg hs, if_neg (by decide), Int.toNat_natCast,
        readLoop_eq _ (by decide) _ _ _ _ (Nat.le_refl _)]
      simp

theorem fgetsAux_line : ∀ (l rest : Str) (n : Nat), (∀ c ∈ l, c ≠ 10) → l.length < n →
    fgetsAux n (l ++ 10 :: rest) = (l ++ [10], rest) := by
  intro l
  induction l with
  | nil => intro rest n _ h; cases n with
    | zero => exact absurd h (by simp)
    | succ n => simp [fgetsAux]
  | cons c l ih =>
    intro rest n hc h
    cases n with
    | zero => exact absurd h (by simp)
    | succ n =>
      have := ih rest n (fun d hd => hc d (List.mem_cons_of_mem _ hd)) (by simpa using h)
      simp [fgetsAux, hc c (List.mem_cons_self ..), this]

theorem fgetsAux_long : ∀ (l rest : Str), (∀ c ∈ l, c ≠ 10) →
    fgetsAux l.length (l ++ rest) = (l, rest) := by
  intro l
  induction l with
  | nil => intro rest _; simp [fgetsAux]
  | cons c l ih =>
    intro rest hc
    have := ih rest (fun d hd => hc d (List.mem_cons_of_mem _ hd))
    simp [fgetsAux, hc c (List.mem_cons_self ..), this]

theorem cString_eq {s : Str} (h : ∀ c ∈ s, c ≠ 0) : cString s = s := by
  unfold cString
  induction s with
  | nil => rfl
  | cons c s ih =>
    have := ih (fun d hd => h d (List.mem_cons_of_mem _ hd))
    simp [h c (List.mem_cons_self ..), this]

theorem readLine_line {l rest : Str} {n : Nat} (hn : n < 2 ^ 31) (h : l.length + 2 ≤ n)
    (hc : ∀ c ∈ l, c ≠ 10 ∧ c ≠ 0) : readLine (l ++ 10 :: rest) n = some (l ++ [10], rest) := by
  unfold readLine fgets
  rw [toInt32_small hn, if_neg (by omega), if_neg (by omega), if_neg (by simp),
    Int.toNat_natCast, fgetsAux_line _ _ _ (fun c h => (hc c h).1) (by omega)]
  have : cString (l ++ [10]) = l ++ [10] := by
    apply cString_eq
    intro c h
    rcases List.mem_append.1 h with h | h
    · exact (hc c h).2
    · simp at h; omega
  simp [this]

theorem readLine_long {l rest : Str} {n : Nat} (hn : n < 2 ^ 31) (h : l.length + 1 = n)
    (h1 : l ≠ []) (hc : ∀ c ∈ l, c ≠ 10 ∧ c ≠ 0) :
    readLine (l ++ rest) n = some (l, rest) := by
  unfold readLine fgets
  have hl : 0 < l.length := List.length_pos_iff.2 h1
  rw [toInt32_small hn, if_neg (by omega), if_neg (by omega), if_neg (by simp [h1]),
    Int.toNat_natCast, show n - 1 = l.length by omega, fgetsAux_long _ _ (fun c h => (hc c h).1)]
  simp [cString_eq (fun c h => (hc c h).2)]

theorem lines_unique {n : Nat} {rest : Str} {a b : List Str} (ha : Lines n rest a)
    (hb : Lines n rest b) : a = b := by
  induction ha generalizing b with
  | done h => cases hb with
    | done _ => rfl
    | more h' _ => rw [h] at h'; cases h'
  | more h _ ih => cases hb with
    | done h' => rw [h] at h'; cases h'
    | more h' hb =>
      rw [h] at h'
      simp only [Option.some.injEq, Prod.mk.injEq] at h'
      obtain ⟨rfl, rfl⟩ := h'
      rw [ih hb]

end Nisaba.PortFile
