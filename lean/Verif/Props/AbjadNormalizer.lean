import Verif.Props.Abjad
import Verif.Props.Acceptor
/-!
# The abjad Normalizer (C55)
-/
namespace Nisaba.Props
open Nisaba Nisaba.Abjad

/-- C55, words: a word over the alphabet is always normalized, to the visual form of its NFC form; any
other word raises `FstInputError`. -/
theorem C55_word (l : AbjadData) (hl : l ∈ Data.abjadLangs) :
    ∃ n R, Abjad.nfcFst Abjad.sigma = some n ∧ Abjad.visualNormFst l Abjad.sigma = some R ∧
      (∀ w, Over Abjad.sigma w → ∃ u t, n w u ∧ R u t ∧ Over Abjad.sigma t ∧
        (∀ c ∈ t, ∀ r, ([c], r) ∉ Data.arabPresentationForms) ∧
        ∀ r, normalizerWord n R w r ↔ r = .ok t) ∧
      (∀ w, ¬ Over Abjad.sigma w → ∀ r, normalizerWord n R w r ↔ r = .fstInputError) := by
  have hσ := writes_sigma hl
  obtain ⟨n, hn, hg, hm⟩ := Abjad.nfc_graph hσ.nfc
  obtain ⟨R, hR, kg, km⟩ := Abjad.visualNorm_graph hl hσ
  have wordOk : ∀ {R : Rel} {f : Str → Str}, Graph Abjad.sigma R f → ∀ {w : Str},
      Over Abjad.sigma w → ∀ r, applyFst R w r ↔ r = .ok (f w) := by
    intro R f hg w hw r
    cases r with
    | ok t =>
      simp only [applyFst, NormResult.ok.injEq]
      rw [hg]; exact ⟨fun h => h.2, fun h => ⟨hw, h⟩⟩
    | fstInputError =>
      simp only [applyFst, reduceCtorEq, iff_false]
      exact fun h => h _ ((hg _ _).2 ⟨hw, rfl⟩)
    | illFormedError => simp [applyFst]
    | stringError => simp [applyFst]
  refine ⟨n, R, hn, hR, fun w hw => ?_, fun w hw r => ?_⟩
  · refine ⟨nfc w, Abjad.visualNorm l (nfc w), (hg _ _).2 ⟨hw, rfl⟩,
      (kg _ _).2 ⟨hm w hw, rfl⟩, km _ (hm w hw), fun c hc r hr => ?_, fun r => ?_⟩
    · exact visualNorm_notForm hl _ c hc _ hr rfl
    · unfold normalizerWord
      constructor
      · rintro ⟨r₁, h1, h2⟩
        rw [(wordOk hg hw r₁).1 h1] at h2
        exact (wordOk kg (hm w hw) r).1 h2
      · intro h
        exact ⟨.ok (nfc w), (wordOk hg hw _).2 rfl, (wordOk kg (hm w hw) r).2 h⟩
  · have key : ∀ r₁, applyFst n w r₁ ↔ r₁ = .fstInputError := by
      intro r₁
      cases r₁ with
      | ok t =>
        simp only [applyFst, reduceCtorEq, iff_false]
        exact fun h => hw ((hg _ _).1 h).1
      | fstInputError =>
        simp only [applyFst, iff_true]
        exact fun t h => hw ((hg _ _).1 h).1
      | illFormedError => simp [applyFst]
      | stringError => simp [applyFst]
    unfold normalizerWord
    constructor
    · rintro ⟨r₁, h1, h2⟩
      rw [(key r₁).1 h1] at h2
      exact h2
    · intro h
      exact ⟨.fstInputError, (key _).2 rfl, h⟩

/-- C55, running text: a line over the alphabet (ignored characters may be anything) is returned with its
ignored runs in place and every other run replaced by its own normal form; a line with a word outside
the alphabet raises `FstInputError`. -/
theorem C55_text (l : AbjadData) (hl : l ∈ Data.abjadLangs) (ignore : Str) (hi : ignore ≠ []) :
    ∃ n R, Abjad.nfcFst Abjad.sigma = some n ∧ Abjad.visualNormFst l Abjad.sigma = some R ∧
      ∀ onWord : Str → NormResult, (∀ w, normalizerWord n R w (onWord w)) → ∀ line,
        ∃ g ps r, Segmented ignore line g ps ∧ normalizerText ignore onWord line = some r ∧
          ((∀ c ∈ line, c ∉ ignore → Abjad.sigma c) → ∃ ns : List Str, ns.length = ps.length ∧
            r = .ok (weave g (ns.zip (ps.map (·.2)))) ∧
            ∀ p ∈ (ps.map (·.1)).zip ns, ∃ u, n p.1 u ∧ R u p.2) ∧
          ((∃ c ∈ line, c ∉ ignore ∧ ¬ Abjad.sigma c) → r = .fstInputError) := by
  obtain ⟨n, R, hn, hR, h1, h2⟩ := C55_word l hl
  refine ⟨n, R, hn, hR, fun onWord hon line => ?_⟩
  obtain ⟨g, ps, r, seg, hr, out⟩ := (C18_text ignore onWord line).2 hi
  have inWord : ∀ p ∈ ps, ∀ c ∈ p.1, c ∈ line := fun p hp c hc => by
    rw [seg.line_eq, weave]
    exact List.mem_append_right _ (List.mem_flatMap.2 ⟨p, hp, List.mem_append_left _ hc⟩)
  have good : ∀ w, Over Abjad.sigma w → ∃ u t, n w u ∧ R u t ∧ onWord w = .ok t := fun w hw => by
    obtain ⟨u, t, a, b, _, _, c⟩ := h1 w hw
    exact ⟨u, t, a, b, (c _).1 (hon w)⟩
  have bad : ∀ w, ¬ Over Abjad.sigma w → onWord w = .fstInputError := fun w hw =>
    (h2 w hw _).1 (hon w)
  refine ⟨g, ps, r, seg, hr, fun hall => ?_, ?_⟩
  · have hover : ∀ p ∈ ps, Over Abjad.sigma p.1 := fun p hp c hc =>
      hall c (inWord p hp c hc) ((seg.words p hp).2.1 c hc)
    rcases out with ⟨ns, k1, k2⟩ | ⟨pre, p, post, k1, k2, k3, _⟩
    · refine ⟨ns, by simpa using (congrArg List.length k1).symm, k2, ?_⟩
      clear k2 seg inWord
      induction ps generalizing ns with
      | nil => intro p hp; simp at hp
      | cons q ps ih =>
        cases ns with
        | nil => intro p hp; simp at hp
        | cons m ns =>
          simp only [List.map_cons, List.cons.injEq, List.zip_cons_cons, List.mem_cons] at k1 ⊢
          rintro p (rfl | hp)
          · obtain ⟨u, t, a, b, c⟩ := good q.1 (hover q (by simp))
            rw [k1.1] at c; cases c
            exact ⟨u, a, b⟩
          · exact ih (fun p hp => hover p (List.mem_cons_of_mem _ hp)) ns k1.2 p hp
    · obtain ⟨u, t, _, _, c⟩ := good p.1 (hover p (by rw [k1]; simp))
      exact absurd (k2.trans c) (k3 t)
  · rintro ⟨c, hc, hci, hcs⟩
    have : ∃ p ∈ ps, c ∈ p.1 := by
      rw [seg.line_eq, weave] at hc
      rcases List.mem_append.1 hc with hc | hc
      · exact absurd (seg.gap c hc) hci
      · obtain ⟨p, hp, hc⟩ := List.mem_flatMap.1 hc
        rcases List.mem_append.1 hc with hc | hc
        · exact ⟨p, hp, hc⟩
        · exact absurd ((seg.words p hp).2.2 c hc) hci
    obtain ⟨p, hp, hcp⟩ := this
    have hno : ¬ Over Abjad.sigma p.1 := fun h => hcs (h c hcp)
    rcases out with ⟨ns, k1, _⟩ | ⟨pre, q, post, k1, k2, k3, _⟩
    · exfalso
      have : onWord p.1 ∈ ns.map NormResult.ok := by
        rw [← k1]; exact List.mem_map.2 ⟨p, hp, rfl⟩
      rw [bad p.1 hno] at this
      simp at this
    · rw [k2]
      by_cases hq : Over Abjad.sigma q.1
      · obtain ⟨u, t, _, _, c⟩ := good q.1 hq
        exact absurd (k2.trans c) (k3 t)
      · exact bad q.1 hq

-- a word over the alphabet, and one outside it
example : Over Abjad.sigma [0x628, 0x627] ∧ ¬ Over Abjad.sigma [0x628, 0x5B] := by
  constructor
  · intro c hc
    refine Or.inr (Or.inr (Or.inl ((memNat_iff).1 ?_)))
    simp at hc
    rcases hc with rfl | rfl <;> decide +kernel
  · intro h
    have h1 := h 0x5B (by simp)
    have key : memNat (tableChars Data.arabNfc ++ tableChars Data.arabPresentationForms ++
        tableChars Data.arabReversibleRoman) 0x5B = false ∧
        (Data.abjadLangs.all fun l => !memNat (tableChars l.readingNorm ++ tableChars l.visualNorm ++
          tableChars l.finalIsolated ++ tableChars l.isolated ++ tableChars l.nonfinal) 0x5B) = true := by
      decide +kernel
    have k1 : ¬ (0x5B ∈ tableChars Data.arabNfc ++ tableChars Data.arabPresentationForms ++
        tableChars Data.arabReversibleRoman) := fun hm => by
      rw [← memNat_iff, key.1] at hm; exact absurd hm (by simp)
    simp only [List.mem_append, not_or] at k1
    rcases h1 with h | h | h | ⟨l, hl, h⟩ | h | h | h | h
    · exact k1.1.1 h
    · exact k1.1.2 h
    · exact k1.2 h
    · have k2 := List.all_eq_true.1 key.2 l hl
      have k3 : ¬ (0x5B ∈ tableChars l.readingNorm ++ tableChars l.visualNorm ++
          tableChars l.finalIsolated ++ tableChars l.isolated ++ tableChars l.nonfinal) := fun hm => by
        rw [← memNat_iff] at hm; rw [hm] at k2; exact absurd k2 (by simp)
      simp only [List.mem_append, not_or] at k3
      rcases h with h | h | h | h | h
      · exact k3.1.1.1.1 h
      · exact k3.1.1.1.2 h
      · exact k3.1.1.2 h
      · exact k3.1.2 h
      · exact k3.2 h
    · exact h.2.1 rfl
    · cases h
    · cases h
    · cases h

end Nisaba.Props
