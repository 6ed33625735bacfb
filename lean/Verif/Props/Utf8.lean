import Verif.Lemmas.Utf8
/-!
# UTF-8 utilities (C31)
-/
namespace Nisaba.Props
open Nisaba.Utf8

/-- Unicode scalar values. -/
def Scalar (c : Nat) : Prop := c < 0xD800 ∨ (0xDFFF < c ∧ c ≤ 0x10FFFF)

theorem scalar_iff (c : Nat) : isScalar c = true ↔ Scalar c := by
  rw [isScalar_iff, Scalar]; omega

/-- C31: encoding succeeds exactly on scalar values, and decoding the encoding gives back the
value and its byte length. -/
theorem C31_round_trip (c : Nat) :
    (Scalar c ↔ ∃ bs, encodeUnicodeChar c = some bs) ∧
    ∀ bs, encodeUnicodeChar c = some bs →
      decodeUnicodeChar bs = (c, bs.length) ∧ decodeSingleUnicodeChar bs = (true, c) := by
  rw [← scalar_iff]
  constructor
  · unfold encodeUnicodeChar
    constructor
    · intro h; exact ⟨_, if_pos h⟩
    · rintro ⟨bs, h⟩
      split at h
      · assumption
      · cases h
  · intro bs h
    unfold encodeUnicodeChar at h
    split at h
    · next hc =>
      simp only [Option.some.injEq] at h
      subst h
      have e : decodeUnicodeChar (encodeRaw c) = (c, (encodeRaw c).length) := by
        have hv : isValid (encodeRaw c) = true :=
          (isValid_iff _).2 ⟨[c], by simpa using hc, by simp⟩
        have hn := decodeNext_encodeRaw c hc []
        rw [List.append_nil] at hn
        have hne : (encodeRaw c).isEmpty = false := by
          cases hh : encodeRaw c with
          | nil => exact absurd hh (encodeRaw_ne_nil c)
          | cons _ _ => rfl
        simp [decodeUnicodeChar, hne, hv, hn]
      refine ⟨e, ?_⟩
      unfold decodeSingleUnicodeChar
      rw [e]
      simp only [bne_self_eq_false, Bool.false_and, Bool.false_eq_true, if_false, beq_self_eq_true,
        Bool.true_and, Prod.mk.injEq, and_true, Bool.or_eq_true, bne_iff_ne, decide_eq_true_eq]
      by_cases hb : c = badChar
      · right; subst hb; decide
      · left; exact hb
    · cases h

/-- C31: the empty string and invalid strings. -/
theorem C31_decode_errors (s : List Nat) :
    (s = [] → decodeUnicodeChar s = (0, 1)) ∧
    (isValid s = false → decodeUnicodeChar s = (0xFFFD, 1) ∧
      decodeSingleUnicodeChar s = (false, 0xFFFD)) := by
  refine ⟨fun h => by subst h; rfl, ?_⟩
  intro h
  have hne : s.isEmpty = false := by
    cases s with
    | nil => exact absurd h (by decide)
    | cons _ _ => rfl
  have e : decodeUnicodeChar s = (0xFFFD, 1) := by simp [decodeUnicodeChar, hne, h, badChar]
  refine ⟨e, ?_⟩
  unfold decodeSingleUnicodeChar
  rw [e]
  simp [badChar]

/-- C31: `DecodeUnicodeChar` on a valid non-empty string returns its first character and the byte
length of that character. -/
theorem C31_decode_first (c : Nat) (cs : List Nat) (h : ∀ x ∈ c :: cs, Scalar x) :
    decodeUnicodeChar ((c :: cs).flatMap encodeRaw) = (c, (encodeRaw c).length) := by
  have h' : ∀ x ∈ c :: cs, isScalar x = true := fun x hx => (scalar_iff x).2 (h x hx)
  have hv : isValid ((c :: cs).flatMap encodeRaw) = true := (isValid_iff _).2 ⟨_, h', rfl⟩
  have hn := decodeNext_encodeRaw c (h' c (by simp)) (cs.flatMap encodeRaw)
  have hne : ((c :: cs).flatMap encodeRaw).isEmpty = false := by
    rw [List.flatMap_cons]
    cases hh : encodeRaw c with
    | nil => exact absurd hh (encodeRaw_ne_nil c)
    | cons _ _ => rfl
  rw [List.flatMap_cons] at *
  simp [decodeUnicodeChar, hne, hv, hn]

/-- C31: `DecodeSingleUnicodeChar` succeeds exactly on the encodings of single scalar values and
then stores that value. -/
theorem C31_decode_single (s : List Nat) (c : Nat) :
    decodeSingleUnicodeChar s = (true, c) ↔ encodeUnicodeChar c = some s := by
  constructor
  · intro h
    cases hv : isValid s with
    | false => rw [((C31_decode_errors s).2 hv).2] at h; simp at h
    | true =>
      obtain ⟨cs, hcs, rfl⟩ := (isValid_iff s).1 hv
      cases cs with
      | nil => simp [decodeSingleUnicodeChar, decodeUnicodeChar] at h
      | cons x cs =>
        have e := C31_decode_first x cs (fun y hy => (scalar_iff y).1 (hcs y hy))
        unfold decodeSingleUnicodeChar at h
        rw [e] at h
        simp only [Prod.mk.injEq, Bool.and_eq_true, beq_iff_eq] at h
        have hl := h.1.1
        have hr : cs.flatMap encodeRaw = [] := by
          rw [List.flatMap_cons, List.length_append] at hl
          exact List.eq_nil_of_length_eq_zero (by omega)
        have hx := hcs x (by simp)
        rw [List.flatMap_cons, hr, List.append_nil] at h ⊢
        have : x = c := by simpa using h.2
        subst this
        simp [encodeUnicodeChar, hx]
  · intro h
    exact ((C31_round_trip c).2 s h).2

/-- C31: splitting a string of encoded scalar values yields the encodings one by one and the
values themselves; the pieces concatenate to the string; an invalid string has no pieces. -/
theorem C31_split (s : List Nat) :
    (∀ cs : List Nat, (∀ c ∈ cs, Scalar c) → s = (cs.map encodeRaw).flatten →
      strSplitByChar s = cs.map encodeRaw ∧ strSplitByCharToUnicode s = cs) ∧
    (isValid s = true → (strSplitByChar s).flatten = s) ∧
    (isValid s = false → strSplitByChar s = [] ∧ strSplitByCharToUnicode s = []) := by
  have key : ∀ cs : List Nat, (∀ c ∈ cs, isScalar c = true) → s = cs.flatMap encodeRaw →
      strSplitByChar s = cs.map encodeRaw := by
    intro cs hcs hs
    have hv : isValid s = true := (isValid_iff s).2 ⟨cs, hcs, hs⟩
    have hd := (decodeAll_iff s cs).2 ⟨hcs, hs⟩
    simp [strSplitByChar, hv, hd]
  refine ⟨?_, ?_, ?_⟩
  · intro cs hcs hs
    have hcs' : ∀ c ∈ cs, isScalar c = true := fun c hc => (scalar_iff c).2 (hcs c hc)
    have e := key cs hcs' (by rw [hs, List.flatMap_def])
    refine ⟨e, ?_⟩
    rw [strSplitByCharToUnicode, e, List.map_map]
    conv => rhs; rw [← List.map_id cs]
    apply List.map_congr_left
    intro c hc
    have : encodeUnicodeChar c = some (encodeRaw c) := by simp [encodeUnicodeChar, hcs' c hc]
    simp only [Function.comp, ((C31_round_trip c).2 _ this).2, id]
  · intro hv
    obtain ⟨cs, hcs, hs⟩ := (isValid_iff s).1 hv
    rw [key cs hcs hs, ← List.flatMap_def, ← hs]
  · intro hv
    have : strSplitByChar s = [] := by simp [strSplitByChar, hv]
    exact ⟨this, by rw [strSplitByCharToUnicode, this]; rfl⟩

/-- A two-character string, one of them outside the basic plane. -/
example : strSplitByChar [0xE0, 0xA4, 0x95, 0xF0, 0x91, 0x92, 0x81] =
    [[0xE0, 0xA4, 0x95], [0xF0, 0x91, 0x92, 0x81]] ∧
    strSplitByCharToUnicode [0xE0, 0xA4, 0x95, 0xF0, 0x91, 0x92, 0x81] = [0x915, 0x11481] := by
  decide

/-- Overlong, surrogate and truncated encodings are invalid. -/
example : isValid [0xC0, 0x80] = false ∧ isValid [0xED, 0xA0, 0x80] = false ∧
    isValid [0xE0, 0xA4] = false := by decide

end Nisaba.Props
