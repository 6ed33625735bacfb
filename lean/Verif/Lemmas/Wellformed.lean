import Verif.Lemmas.Regex
/-!
# The well-formedness grammar as a regular expression
-/
namespace Nisaba
open Lang

theorem ofRows_iff (rows : List Rule) (s : Str) :
    RE.lang (RE.ofRows rows) s ↔ inputLang rows s := by
  induction rows with
  | nil => simp [RE.ofRows, RE.lang, Lang.empty, inputLang]
  | cons r t ih =>
    simp only [RE.ofRows, RE.lang, Lang.union, ih, inputLang, List.mem_cons]
    constructor
    · rintro (rfl | ⟨y, h⟩)
      · exact ⟨r.2, Or.inl rfl⟩
      · exact ⟨y, Or.inr h⟩
    · rintro ⟨y, rfl | h⟩
      · exact Or.inl rfl
      · exact Or.inr ⟨y, h⟩

theorem onEmpty_empty (L : Lang) : onEmpty L = L := by
  funext s; simp [onEmpty, Lang.empty]

theorem inputStringFile_eq (rows : List Rule) : inputStringFile rows = inputLang rows :=
  onEmpty_empty _

theorem quesSafe_eq (L : Lang) : quesSafe L = ques L := by
  funext s
  simp only [quesSafe, ques, onEmpty, epsilon, eq_iff_iff]
  constructor
  · rintro (h | h | h)
    · exact Or.inl h
    · exact Or.inr h
    · exact Or.inl h.2
  · rintro (h | h)
    · exact Or.inl h
    · exact Or.inr (Or.inl h)

theorem starSafe_eq (L : Lang) : starSafe L = Star L := by
  funext s
  simp only [starSafe, eq_iff_iff]
  constructor
  · intro h
    induction h with
    | nil => exact Star.nil
    | cons h _ ih =>
      rcases h with h | h
      · exact Star.cons h ih
      · rw [h.2]; exact ih
  · intro h
    induction h with
    | nil => exact Star.nil
    | cons h _ ih => exact Star.cons (Or.inl h) ih

theorem lang_ofRows (rows : List Rule) : RE.lang (RE.ofRows rows) = inputLang rows := by
  funext s; exact propext (ofRows_iff rows s)

theorem lang_ques (r : RE) : RE.lang (RE.ques r) = ques (RE.lang r) := rfl

/-- `consonant` as a regular expression. -/
def reConsonant (d : BrahmicData) : RE :=
  RE.cat (RE.ofRows d.consonant) (RE.ques (RE.ofRows d.subjoined))

/-- `cluster`. -/
def reCluster (d : BrahmicData) : RE :=
  RE.cat (RE.star (RE.cat (reConsonant d) (RE.alt (RE.ofRows d.virama) (RE.ofRows d.preserve))))
    (reConsonant d)

/-- `cluster_with_vowel`. -/
def reClusterWithVowel (d : BrahmicData) : RE :=
  if d.noInherentVowel then RE.cat (reCluster d) (RE.ofRows d.vowelSign)
  else RE.cat (reCluster d) (RE.ques (RE.ofRows d.vowelSign))

/-- `akshara`. -/
def reAkshara (d : BrahmicData) : RE :=
  RE.alt
    (RE.cat (RE.alt (RE.ofRows d.vowel) (reClusterWithVowel d))
      (RE.cat (RE.cat (RE.ques (RE.ofRows d.vowelLength)) (RE.ques (RE.ofRows d.coda)))
        (RE.ques (RE.ofRows d.deadConsonant))))
    (RE.cat (RE.cat (reCluster d) (RE.ofRows d.virama)) (RE.ques (RE.ofRows d.deadConsonant)))

/-- `accept_well_formed`. -/
def reWellFormed (d : BrahmicData) : RE :=
  RE.star (RE.alt (RE.alt (reAkshara d) (RE.ofRows d.standalone)) (RE.ofRows d.accept))

theorem reConsonant_eq (d : BrahmicData) : RE.lang (reConsonant d) = wfConsonant d := by
  simp only [reConsonant, wfConsonant, RE.lang, lang_ofRows, lang_ques, inputStringFile_eq,
    quesSafe_eq]

theorem reCluster_eq (d : BrahmicData) : RE.lang (reCluster d) = wfCluster d := by
  simp only [reCluster, wfCluster, RE.lang, lang_ofRows, inputStringFile_eq, starSafe_eq,
    reConsonant_eq]

theorem reClusterWithVowel_eq (d : BrahmicData) :
    RE.lang (reClusterWithVowel d) = wfClusterWithVowel d := by
  unfold reClusterWithVowel wfClusterWithVowel
  split <;> simp only [RE.lang, lang_ofRows, inputStringFile_eq, reCluster_eq, lang_ques]

theorem reAkshara_eq (d : BrahmicData) : RE.lang (reAkshara d) = wfAkshara d := by
  simp only [reAkshara, wfAkshara, wfClusterOrVowelWithCoda, wfClusterAndVirama, RE.lang,
    lang_ofRows, lang_ques, inputStringFile_eq, quesSafe_eq, reCluster_eq, reClusterWithVowel_eq]

theorem reWellFormed_eq (d : BrahmicData) : RE.lang (reWellFormed d) = wellFormed d := by
  simp only [reWellFormed, wellFormed, RE.lang, lang_ofRows, inputStringFile_eq, starSafe_eq,
    reAkshara_eq]

/-! ## A bit-vector automaton -/

/-- Bits of the members of `S` in the list `U`. -/
def encodeBits (U S : List RE) : List Bool := U.map fun p => decide (p ∈ S)

/-- Members of `U` selected by the bits. -/
def decodeBits : List RE → List Bool → List RE
  | p :: U, b :: bs => bif b then p :: decodeBits U bs else decodeBits U bs
  | _, _ => []

theorem mem_decode_encode (U S : List RE) (p : RE) :
    p ∈ decodeBits U (encodeBits U S) ↔ p ∈ U ∧ p ∈ S := by
  induction U with
  | nil => simp [decodeBits]
  | cons q U ih =>
    simp only [encodeBits, List.map_cons, decodeBits] at ih ⊢
    by_cases hq : q ∈ S
    · simp only [hq, decide_true, cond_true, List.mem_cons, ih]
      constructor
      · rintro (rfl | h)
        · exact ⟨Or.inl rfl, hq⟩
        · exact ⟨Or.inr h.1, h.2⟩
      · rintro ⟨rfl | h, h'⟩
        · exact Or.inl rfl
        · exact Or.inr ⟨h, h'⟩
    · simp only [hq, decide_false, cond_false, ih, List.mem_cons]
      constructor
      · rintro h; exact ⟨Or.inr h.1, h.2⟩
      · rintro ⟨rfl | h, h'⟩
        · exact absurd h' hq
        · exact ⟨h, h'⟩

/-- One step of the automaton. -/
def bitStep (U : List RE) (bs : List Bool) (c : Nat) : List Bool :=
  encodeBits U (RE.pdSet c (decodeBits U bs))

theorem bits_spec (U : List RE) (s : Str) (S : List RE) (bs : List Bool)
    (hl : bs.length = U.length)
    (hU : ∀ c, ∀ p ∈ U, ∀ q ∈ RE.pd c p, q ∈ U)
    (hb : ∀ p, p ∈ decodeBits U bs ↔ p ∈ S) (hS : ∀ p ∈ S, p ∈ U) :
    (s.foldl (bitStep U) bs).length = U.length ∧
    ∀ p, p ∈ decodeBits U (s.foldl (bitStep U) bs) ↔ p ∈ RE.run S s := by
  induction s generalizing S bs with
  | nil => exact ⟨hl, hb⟩
  | cons c s ih =>
    simp only [List.foldl_cons, RE.run]
    apply ih
    · simp [bitStep, encodeBits]
    · intro p
      rw [bitStep, mem_decode_encode]
      have e : p ∈ RE.pdSet c (decodeBits U bs) ↔ p ∈ RE.pdSet c S := by
        simp only [RE.pdSet, List.mem_flatMap, hb]
      rw [e]
      constructor
      · exact fun h => h.2
      · intro h
        refine ⟨?_, h⟩
        obtain ⟨q, hq, hp⟩ := List.mem_flatMap.1 h
        exact hU c q (hS q hq) p hp
    · intro p h
      obtain ⟨q, hq, hp⟩ := List.mem_flatMap.1 h
      exact hU c q (hS q hq) p hp

/-- Every regular expression is recognised by an automaton with finitely many states. -/
theorem re_dfa (r : RE) : ∃ (m : Nat) (start : List Bool) (step : List Bool → Nat → List Bool)
    (acc : List Bool → Bool), ∀ s : Str,
      (s.foldl step start).length = m ∧ (acc (s.foldl step start) = true ↔ RE.lang r s) := by
  let U := r :: RE.summary r
  refine ⟨U.length, encodeBits U [r], bitStep U, fun bs => (decodeBits U bs).any RE.nullable, ?_⟩
  intro s
  have h := bits_spec U s [r] (encodeBits U [r]) (by simp [encodeBits])
    (fun c p hp q hq => List.mem_cons_of_mem _ (RE.summary_closed r c p hp q hq))
    (fun p => by
      rw [mem_decode_encode]
      exact ⟨fun h => h.2, fun h => ⟨by simp at h; simp [U, h], h⟩⟩)
    (fun p h => by simp at h; simp [U, h])
  refine ⟨h.1, ?_⟩
  rw [← RE.accepts_iff, RE.accepts, List.any_eq_true, List.any_eq_true]
  simp only [h.2]

/-! ## Pieces of a starred language -/

/-- First piece of a non-empty member. -/
theorem star_first {L : Lang} {c : Nat} {t : Str} (h : Star L (c :: t)) :
    ∃ q, L (c :: q) ∧ q <+: t := by
  obtain ⟨x, y, rfl, hx, _⟩ := (RE.star_cons_iff _ _ _).1 h
  exact ⟨x, hx, List.prefix_append _ _⟩

/-- A pair of adjacent characters lies within one piece, or between the end of a piece and the
start of a later one. -/
theorem star_pair {L : Lang} {a b : Str} {x y : Nat} (h : Star L (a ++ x :: y :: b)) :
    (∃ p q, L (p ++ x :: y :: q) ∧ p <:+ a ∧ q <+: b) ∨
    (∃ p q, L (p ++ [x]) ∧ L (y :: q) ∧ q <+: b) := by
  generalize hw : a ++ x :: y :: b = w at h
  induction h generalizing a with
  | nil => simp at hw
  | @cons u v hu hv ih =>
    rcases RE.pair_split hw.symm with ⟨b', rfl, rfl⟩ | ⟨rfl, rfl⟩ | ⟨a', rfl, rfl⟩
    · exact Or.inl ⟨a, b', hu, List.suffix_refl _, List.prefix_append _ _⟩
    · obtain ⟨q, hq, hp⟩ := star_first hv
      exact Or.inr ⟨a, q, hu, hq, hp⟩
    · rcases ih rfl with ⟨p, q, h1, h2, h3⟩ | h
      · exact Or.inl ⟨p, q, h1, h2.trans (List.suffix_append _ _), h3⟩
      · exact Or.inr h

end Nisaba
