import Verif.Model.Acceptor
import Verif.Lemmas.Wellformed
import Verif.Lemmas.ByteMode
/-! Lemmas about Pynini string compilation and the byte-mode acceptor. -/
namespace Nisaba

theorem utf8_cons (c : Nat) (s : Str) : utf8 (c :: s) = Utf8.encodeRaw c ++ utf8 s := rfl
theorem utf8_append (s t : Str) : utf8 (s ++ t) = utf8 s ++ utf8 t := by simp [utf8]

/-- The bytes of a character contain a special byte only if the character is that one. -/
theorem encodeRaw_special {c b : Nat} (hb : b ∈ Utf8.encodeRaw c) (h : isSpecial b = true) :
    c = b := by
  have hb' : b < 128 := by
    simp only [isSpecial, Bool.or_eq_true, beq_iff_eq] at h
    omega
  unfold Utf8.encodeRaw at hb
  split at hb
  · exact (List.mem_singleton.1 hb).symm
  · split at hb
    · simp at hb; omega
    · split at hb
      · simp at hb; omega
      · simp at hb; omega

theorem encodeRaw_of_special {c : Nat} (h : isSpecial c = true) : Utf8.encodeRaw c = [c] := by
  simp only [isSpecial, Bool.or_eq_true, beq_iff_eq] at h
  rcases h with (rfl | rfl) | rfl <;> rfl

theorem pyCompileAux_plain (gen : Str → Str) (x s : Str) (h : ∀ b ∈ x, isSpecial b = false) :
    pyCompileAux gen none (x ++ s) = (pyCompileAux gen none s).map (x ++ ·) := by
  induction x with
  | nil => simp
  | cons b x ih =>
    have hb := h b (by simp)
    simp only [isSpecial, Bool.or_eq_false_iff, beq_eq_false_iff_ne] at hb
    rw [List.cons_append, pyCompileAux.eq_def]
    simp only [hb.2, hb.1.1, hb.1.2, if_false]
    rw [ih fun b hb => h b (List.mem_cons_of_mem _ hb)]
    simp [Function.comp_def]

/-- A text without special characters is compiled to itself. -/
theorem pyCompile_plain (gen : Str → Str) (x : Str) (h : ∀ b ∈ x, isSpecial b = false) :
    pyCompile gen x = some x := by
  have := pyCompileAux_plain gen x [] h
  rw [List.append_nil] at this
  rw [pyCompile, this, pyCompileAux.eq_def]
  simp

/-- Compiling an escaped text gives the text. -/
theorem pyCompile_escape (gen : Str → Str) (s : Str) :
    pyCompile gen (utf8 (pyEscape s)) = some (utf8 s) := by
  unfold pyCompile
  induction s with
  | nil => simp [pyEscape, utf8, pyCompileAux]
  | cons c s ih =>
    have e : pyEscape (c :: s) = (if isSpecial c then [0x5C, c] else [c]) ++ pyEscape s := rfl
    rw [e]
    by_cases h : isSpecial c = true
    · have ec := encodeRaw_of_special h
      rw [if_pos h]
      rw [utf8_append, utf8_cons, utf8_cons, ec, utf8_cons, ec]
      have e92 : Utf8.encodeRaw 0x5C = [0x5C] := rfl
      rw [e92]
      show pyCompileAux gen none (0x5C :: c :: (utf8 (pyEscape s))) = _
      rw [pyCompileAux.eq_def]
      simp [h, ih]
    · rw [if_neg h, utf8_append, utf8_cons, utf8_cons,
        show utf8 [] = [] from rfl, List.append_nil, pyCompileAux_plain, ih]
      · rfl
      · intro b hb
        cases hs : isSpecial b with
        | false => rfl
        | true => rw [encodeRaw_special hb hs] at h; exact absurd hs h

/-! ### The byte-mode acceptor -/

open Lang

/-- Byte strings of the texts of a language. -/
def img (L : Lang) : Lang := fun b => ∃ s, L s ∧ b = encText s

theorem img_inputLang (rows : List Rule) : inputLang (encRules rows) = img (inputLang rows) := by
  funext b
  simp only [inputLang, encRules, List.mem_map, img, Prod.mk.injEq, eq_iff_iff]
  constructor
  · rintro ⟨y, p, hp, rfl, rfl⟩; exact ⟨p.1, ⟨p.2, hp⟩, rfl⟩
  · rintro ⟨s, ⟨y, h⟩, rfl⟩; exact ⟨encText y, (s, y), h, rfl, rfl⟩

theorem img_union (a b : Lang) : union (img a) (img b) = img (union a b) := by
  funext x
  simp only [union, img, eq_iff_iff]
  constructor
  · rintro (⟨s, h, rfl⟩ | ⟨s, h, rfl⟩)
    · exact ⟨s, Or.inl h, rfl⟩
    · exact ⟨s, Or.inr h, rfl⟩
  · rintro ⟨s, h | h, rfl⟩
    · exact Or.inl ⟨s, h, rfl⟩
    · exact Or.inr ⟨s, h, rfl⟩

theorem img_cat (a b : Lang) : cat (img a) (img b) = img (cat a b) := by
  funext x
  simp only [cat, img, eq_iff_iff]
  constructor
  · rintro ⟨_, _, rfl, ⟨s, h, rfl⟩, ⟨t, k, rfl⟩⟩
    exact ⟨s ++ t, ⟨s, t, rfl, h, k⟩, (encText_append s t).symm⟩
  · rintro ⟨_, ⟨s, t, rfl, h, k⟩, rfl⟩
    exact ⟨_, _, encText_append s t, ⟨s, h, rfl⟩, ⟨t, k, rfl⟩⟩

theorem img_ques (a : Lang) : ques (img a) = img (ques a) := by
  funext x
  simp only [ques, img, eq_iff_iff]
  constructor
  · rintro (rfl | ⟨s, h, rfl⟩)
    · exact ⟨[], Or.inl rfl, rfl⟩
    · exact ⟨s, Or.inr h, rfl⟩
  · rintro ⟨s, rfl | h, rfl⟩
    · exact Or.inl rfl
    · exact Or.inr ⟨s, h, rfl⟩

theorem img_star (a : Lang) : Star (img a) = img (Star a) := by
  funext x
  simp only [eq_iff_iff]
  constructor
  · intro h
    induction h with
    | nil => exact ⟨[], .nil, rfl⟩
    | cons h _ ih =>
      obtain ⟨s, hs, rfl⟩ := h
      obtain ⟨t, ht, rfl⟩ := ih
      exact ⟨s ++ t, .cons hs ht, (encText_append s t).symm⟩
  · rintro ⟨s, h, rfl⟩
    induction h with
    | nil => exact .nil
    | @cons x y h _ ih =>
      rw [encText_append]
      exact .cons ⟨x, h, rfl⟩ ih

/-- The acceptor exported in byte mode accepts exactly the bytes of the well-formed texts. -/
theorem byteWellFormed_eq (d : BrahmicData) : byteWellFormed d = img (wellFormed d) := by
  unfold byteWellFormed wellFormed
  simp only [starSafe_eq, wfAkshara, wfClusterOrVowelWithCoda, wfClusterWithVowel,
    wfClusterAndVirama, wfCluster, wfConsonant, quesSafe_eq, inputStringFile_eq, encData]
  split <;> simp only [img_inputLang, img_union, img_cat, img_ques, img_star]

end Nisaba

namespace Nisaba
open Lang

/-! ### Alphabet of the well-formed texts -/

section
variable {σ : Nat → Prop}

theorem over_append {s t : Str} (hs : Over σ s) (ht : Over σ t) : Over σ (s ++ t) :=
  fun c hc => (List.mem_append.1 hc).elim (hs c) (ht c)

theorem sub_cat {a b : Lang} (ha : ∀ s, a s → Over σ s) (hb : ∀ s, b s → Over σ s) :
    ∀ s, cat a b s → Over σ s := by
  rintro _ ⟨x, y, rfl, hx, hy⟩; exact over_append (ha x hx) (hb y hy)

theorem sub_union {a b : Lang} (ha : ∀ s, a s → Over σ s) (hb : ∀ s, b s → Over σ s) :
    ∀ s, union a b s → Over σ s := fun s h => h.elim (ha s) (hb s)

theorem sub_ques {a : Lang} (ha : ∀ s, a s → Over σ s) : ∀ s, ques a s → Over σ s := by
  rintro s (rfl | h)
  · intro c hc; simp at hc
  · exact ha s h

theorem sub_star {a : Lang} (ha : ∀ s, a s → Over σ s) : ∀ s, Star a s → Over σ s := by
  intro s h
  induction h with
  | nil => intro c hc; simp at hc
  | cons h _ ih => exact over_append (ha _ h) ih

theorem sub_input {rows : List Rule} (h : ∀ p ∈ rows, Over σ p.1) :
    ∀ s, inputLang rows s → Over σ s := by
  rintro s ⟨y, hy⟩; exact h _ hy

/-- Well-formed texts are over the characters of the tables. -/
theorem wellFormed_over {d : BrahmicData}
    (h : ∀ p ∈ d.consonant ++ d.deadConsonant ++ d.subjoined ++ d.vowelSign ++ d.vowel ++
      d.vowelLength ++ d.coda ++ d.standalone ++ d.virama ++ d.accept ++ d.preserve, Over σ p.1)
    {s : Str} (hs : wellFormed d s) : Over σ s := by
  simp only [List.mem_append] at h
  unfold wellFormed at hs
  rw [starSafe_eq] at hs
  refine sub_star ?_ s hs
  simp only [wfAkshara, wfClusterOrVowelWithCoda, wfClusterWithVowel,
    wfClusterAndVirama, wfCluster, wfConsonant, quesSafe_eq, inputStringFile_eq, starSafe_eq]
  split <;>
  · repeat' first
      | with_reducible apply sub_cat
      | with_reducible apply sub_union
      | with_reducible apply sub_ques
      | with_reducible apply sub_star
      | (apply sub_input; intro p hp; apply h; simp [hp])

end

end Nisaba
