import Verif.Model.Utf8
/-!
# UTF-8: decoding inverts encoding
-/
namespace Nisaba.Utf8

theorem isScalar_iff (c : Nat) :
    isScalar c = true ↔ c ≤ 0x10FFFF ∧ ¬ (0xD800 ≤ c ∧ c ≤ 0xDFFF) := by
  simp only [isScalar, Bool.and_eq_true, decide_eq_true_eq, Bool.not_eq_true',
    Bool.and_eq_false_iff, decide_eq_false_iff_not]
  omega

theorem encodeRaw_ne_nil (c : Nat) : encodeRaw c ≠ [] := by
  unfold encodeRaw; split <;> (try split) <;> (try split) <;> simp

theorem isTrail_add (x : Nat) (h : x < 64) : isTrail (0x80 + x) = true := by
  simp only [isTrail, beq_iff_eq]; omega

theorem decodeNext_encodeRaw (c : Nat) (hc : isScalar c = true) (rest : List Nat) :
    decodeNext (encodeRaw c ++ rest) = some (c, rest) := by
  have h := (isScalar_iff c).1 hc
  unfold encodeRaw
  split
  · next h1 =>
    simp only [List.cons_append, List.nil_append, decodeNext, if_pos h1, checkNext, hc, isOverlong]
    simp
  · next h1 =>
    split
    · next h2 =>
      have e0 : ¬ (0xC0 + c / 64 < 0x80) := by omega
      have e1 : (0xC0 + c / 64) / 32 = 6 := by omega
      have e2 : (0xC0 + c / 64) % 32 * 64 + (0x80 + c % 64) % 64 = c := by omega
      simp only [List.cons_append, List.nil_append, decodeNext, if_neg e0, if_pos e1,
        isTrail_add _ (Nat.mod_lt c (by decide : 64 > 0)), if_true, e2, checkNext, hc, isOverlong,
        if_neg h1, if_pos h2]
      simp
    · next h2 =>
      split
      · next h3 =>
        have e0 : ¬ (0xE0 + c / 4096 < 0x80) := by omega
        have e1 : ¬ (0xE0 + c / 4096) / 32 = 6 := by omega
        have e2 : (0xE0 + c / 4096) / 16 = 14 := by omega
        have e3 : (0xE0 + c / 4096) % 16 * 4096 + (0x80 + c / 64 % 64) % 64 * 64
            + (0x80 + c % 64) % 64 = c := by omega
        simp only [List.cons_append, List.nil_append, decodeNext, if_neg e0, if_neg e1, if_pos e2,
          isTrail_add _ (Nat.mod_lt c (by decide : 64 > 0)),
          isTrail_add _ (Nat.mod_lt (c / 64) (by decide : 64 > 0)), Bool.and_self, if_true, e3,
          checkNext, hc, isOverlong, if_neg h1, if_neg h2, if_pos h3]
        simp
      · next h3 =>
        have e0 : ¬ (0xF0 + c / 262144 < 0x80) := by omega
        have e1 : ¬ (0xF0 + c / 262144) / 32 = 6 := by omega
        have e2 : ¬ (0xF0 + c / 262144) / 16 = 14 := by omega
        have e3 : (0xF0 + c / 262144) / 8 = 30 := by omega
        have e4 : (0xF0 + c / 262144) % 8 * 262144 + (0x80 + c / 4096 % 64) % 64 * 4096
            + (0x80 + c / 64 % 64) % 64 * 64 + (0x80 + c % 64) % 64 = c := by omega
        simp only [List.cons_append, List.nil_append, decodeNext, if_neg e0, if_neg e1, if_neg e2,
          if_pos e3, isTrail_add _ (Nat.mod_lt c (by decide : 64 > 0)),
          isTrail_add _ (Nat.mod_lt (c / 64) (by decide : 64 > 0)),
          isTrail_add _ (Nat.mod_lt (c / 4096) (by decide : 64 > 0)), Bool.and_self, if_true, e4,
          checkNext, hc, isOverlong, if_neg h1, if_neg h2, if_neg h3]
        simp

theorem checkNext_some {c len : Nat} {r rest : List Nat} {x : Nat}
    (h : checkNext c len r = some (x, rest)) :
    x = c ∧ rest = r ∧ isScalar c = true ∧ isOverlong c len = false := by
  unfold checkNext at h
  split at h
  · next h1 =>
    simp only [Bool.and_eq_true, Bool.not_eq_true'] at h1
    simp only [Option.some.injEq, Prod.mk.injEq] at h
    exact ⟨h.1.symm, h.2.symm, h1.1, h1.2⟩
  · cases h

theorem isTrail_iff (b : Nat) : isTrail b = true ↔ 128 ≤ b ∧ b < 192 := by
  simp only [isTrail, beq_iff_eq]; omega

theorem decodeNext_some {s rest : List Nat} {c : Nat} (h : decodeNext s = some (c, rest)) :
    isScalar c = true ∧ s = encodeRaw c ++ rest := by
  cases s with
  | nil => cases h
  | cons b s =>
    simp only [decodeNext] at h
    split at h
    · next hb =>
      obtain ⟨rfl, rfl, h1, h2⟩ := checkNext_some h
      exact ⟨h1, by simp [encodeRaw, hb]⟩
    · next hb =>
      split at h
      · next h6 =>
        split at h
        · next b1 s =>
          split at h
          · next ht =>
            have ht := (isTrail_iff _).1 ht
            obtain ⟨rfl, rfl, h1, h2⟩ := checkNext_some h
            refine ⟨h1, ?_⟩
            simp only [isOverlong] at h2
            split at h2
            · simp at h2
            · next g1 =>
              have g2 : b % 32 * 64 + b1 % 64 < 0x800 := by omega
              simp only [encodeRaw, if_neg g1, if_pos g2, List.cons_append, List.nil_append,
                List.cons.injEq, and_true]
              omega
          · cases h
        · cases h
      · next h6 =>
        split at h
        · next h14 =>
          split at h
          · next b1 b2 s =>
            split at h
            · next ht =>
              simp only [Bool.and_eq_true, isTrail_iff] at ht
              obtain ⟨rfl, rfl, h1, h2⟩ := checkNext_some h
              refine ⟨h1, ?_⟩
              simp only [isOverlong] at h2
              split at h2
              · simp at h2
              · next g1 =>
                split at h2
                · simp at h2
                · next g2 =>
                  have g3 : b % 16 * 4096 + b1 % 64 * 64 + b2 % 64 < 0x10000 := by omega
                  simp only [encodeRaw, if_neg g1, if_neg g2, if_pos g3, List.cons_append,
                    List.nil_append, List.cons.injEq, and_true]
                  omega
            · cases h
          · cases h
        · next h14 =>
          split at h
          · next h30 =>
            split at h
            · next b1 b2 b3 s =>
              split at h
              · next ht =>
                simp only [Bool.and_eq_true, isTrail_iff] at ht
                obtain ⟨rfl, rfl, h1, h2⟩ := checkNext_some h
                refine ⟨h1, ?_⟩
                simp only [isOverlong] at h2
                split at h2
                · simp at h2
                · next g1 =>
                  split at h2
                  · simp at h2
                  · next g2 =>
                    split at h2
                    · simp at h2
                    · next g3 =>
                      simp only [encodeRaw, if_neg g1, if_neg g2, if_neg g3, List.cons_append,
                        List.nil_append, List.cons.injEq, and_true]
                      omega
              · cases h
            · cases h
          · cases h

theorem decodeSteps_encode (cs : List Nat) (hc : ∀ c ∈ cs, isScalar c = true) (n : Nat)
    (hn : (cs.flatMap encodeRaw).length ≤ n) :
    decodeSteps n (cs.flatMap encodeRaw) = some cs := by
  induction cs generalizing n with
  | nil => cases n <;> rfl
  | cons c cs ih =>
    rw [List.flatMap_cons]
    cases hb : encodeRaw c with
    | nil => exact absurd hb (encodeRaw_ne_nil c)
    | cons b t =>
      rw [List.flatMap_cons, hb] at hn
      cases n with
      | zero => simp at hn
      | succ n =>
        have e := decodeNext_encodeRaw c (hc c (by simp)) (cs.flatMap encodeRaw)
        rw [hb] at e
        rw [List.cons_append] at e ⊢
        simp only [decodeSteps, e]
        rw [ih (fun x hx => hc x (by simp [hx])) n (by simp at hn ⊢; omega)]

theorem decodeAll_encode (cs : List Nat) (hc : ∀ c ∈ cs, isScalar c = true) :
    decodeAll (cs.flatMap encodeRaw) = some cs := decodeSteps_encode cs hc _ (Nat.le_refl _)

theorem decodeSteps_some (n : Nat) (s cs : List Nat) (h : decodeSteps n s = some cs) :
    (∀ c ∈ cs, isScalar c = true) ∧ s = cs.flatMap encodeRaw := by
  induction n generalizing s cs with
  | zero => cases s with
    | nil => simp [decodeSteps] at h; subst h; simp
    | cons b s => simp [decodeSteps] at h
  | succ n ih => cases s with
    | nil => simp [decodeSteps] at h; subst h; simp
    | cons b s =>
      simp only [decodeSteps] at h
      split at h
      · cases h
      · next c rest hn =>
        split at h
        · cases h
        · next ds hd =>
          simp only [Option.some.injEq] at h; subst h
          obtain ⟨h1, h2⟩ := decodeNext_some hn
          obtain ⟨h3, h4⟩ := ih _ _ hd
          refine ⟨?_, by rw [List.flatMap_cons, h2, h4]⟩
          intro x hx
          rcases List.mem_cons.1 hx with rfl | hx
          · exact h1
          · exact h3 x hx

theorem decodeAll_iff (s cs : List Nat) : decodeAll s = some cs ↔
    (∀ c ∈ cs, isScalar c = true) ∧ s = cs.flatMap encodeRaw :=
  ⟨decodeSteps_some _ s cs, fun ⟨h, e⟩ => by rw [e]; exact decodeAll_encode cs h⟩

theorem isValid_iff (s : List Nat) : isValid s = true ↔
    ∃ cs : List Nat, (∀ c ∈ cs, isScalar c = true) ∧ s = cs.flatMap encodeRaw := by
  rw [isValid, Option.isSome_iff_exists]
  simp only [decodeAll_iff]

/-- Encoding of strings of scalar values is injective. -/
theorem encode_injective {cs ds : List Nat} (hc : ∀ c ∈ cs, isScalar c = true)
    (hd : ∀ c ∈ ds, isScalar c = true)
    (h : cs.flatMap encodeRaw = ds.flatMap encodeRaw) : cs = ds := by
  have := decodeAll_encode cs hc
  rw [h, decodeAll_encode ds hd] at this
  exact (Option.some.inj this).symm

end Nisaba.Utf8
